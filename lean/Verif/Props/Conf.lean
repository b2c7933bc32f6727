import Verif.Spec.Conf
import Verif.Cli
import Verif.Props.Themes
import Verif.Props.MagicaSaved

/-! What the game reads in the config (C90). -/

namespace Verif.Props
open Verif Verif.Spec

/-! ### Lines -/

theorem linesOf_append (a b : List Char) (ha : '\n' ∉ a) : linesOf (a ++ '\n' :: b) = a :: linesOf b := by
  induction a with
  | nil => simp [linesOf]
  | cons c a ih =>
    have hc : c ≠ '\n' := fun h => ha (by simp [h])
    rw [List.cons_append, linesOf, if_neg hc, ih (fun h => ha (List.mem_cons_of_mem _ h))]

theorem linesOf_last (a : List Char) (ha : '\n' ∉ a) : linesOf a = [a] := by
  induction a with
  | nil => rfl
  | cons c a ih =>
    have hc : c ≠ '\n' := fun h => ha (by simp [h])
    rw [linesOf, if_neg hc, ih (fun h => ha (List.mem_cons_of_mem _ h))]

theorem wordsOf_append (a b : List Char) (ha : ' ' ∉ a) : wordsOf (a ++ ' ' :: b) = a :: wordsOf b := by
  induction a with
  | nil => simp [wordsOf]
  | cons c a ih =>
    have hc : c ≠ ' ' := fun h => ha (by simp [h])
    rw [List.cons_append, wordsOf, if_neg hc, ih (fun h => ha (List.mem_cons_of_mem _ h))]

theorem wordsOf_last (a : List Char) (ha : ' ' ∉ a) : wordsOf a = [a] := by
  induction a with
  | nil => rfl
  | cons c a ih =>
    have hc : c ≠ ' ' := fun h => ha (by simp [h])
    rw [wordsOf, if_neg hc, ih (fun h => ha (List.mem_cons_of_mem _ h))]

/-- A text made of whole lines. -/
def textOf (ls : List (List Char)) : List Char := ls.flatMap fun l => l ++ ['\n']

theorem linesOf_textOf (ls : List (List Char)) (h : ∀ l ∈ ls, '\n' ∉ l) (b : List Char) :
    linesOf (textOf ls ++ b) = ls ++ linesOf b := by
  induction ls with
  | nil => rfl
  | cons l ls ih =>
    simp only [textOf, List.flatMap_cons, List.append_assoc, List.cons_append, List.nil_append]
    rw [linesOf_append _ _ (h l (by simp))]
    congr 1
    exact ih fun l hl => h l (List.mem_cons_of_mem _ hl)

/-- The characters of a text; kept folded so that literals are not evaluated. -/
@[irreducible] def L (s : String) : List Char := s.toList

theorem L_eq (s : String) : L s = s.toList := by unfold L; rfl

theorem L_append (a b : String) : L (a ++ b) = L a ++ L b := by simp only [L_eq, String.toList_append]

/-! ### The effect of single lines -/

/-- A line that does not start like a texture command. -/
def Idle (l : List Char) : Prop := l.take 1 ≠ ['t']

instance (l : List Char) : Decidable (Idle l) := by unfold Idle; infer_instance

theorem readLine_idle (s : List Slot) (l : List Char) (h : Idle l) : readLine s l = s := by
  unfold readLine
  split
  · exact absurd rfl h
  · exact absurd rfl h
  · rfl

theorem takeWhile_quote (p b : List Char) (h : '"' ∉ p) : (p ++ '"' :: b).takeWhile (fun x => x != '"') = p := by
  induction p with
  | nil => simp
  | cons c p ih =>
    have hc : c ≠ '"' := fun h' => h (by simp [h'])
    rw [List.cons_append, List.takeWhile_cons, if_pos (by simp [hc]), ih (fun h' => h (List.mem_cons_of_mem _ h'))]

theorem readLine_main (s : List Slot) (p b : List Char) (h : '"' ∉ p) :
    readLine s (L "texture c \"" ++ (p ++ '"' :: b)) = s ++ [{ image := p }] := by
  have e : L "texture c \"" = ['t', 'e', 'x', 't', 'u', 'r', 'e', ' ', 'c', ' ', '"'] := by decide +kernel
  rw [e]
  simp only [List.cons_append, List.nil_append, readLine, takeWhile_quote _ _ h, if_true]

theorem readLine_more (s : List Slot) (c : Char) (hc : c ≠ 'c') (p b : List Char) (h : '"' ∉ p) :
    readLine s (L "texture " ++ (c :: L " \"" ++ (p ++ '"' :: b))) =
      onLast (fun s => { s with more := s.more ++ [(c, p)] }) s := by
  have e : L "texture " = ['t', 'e', 'x', 't', 'u', 'r', 'e', ' '] := by decide +kernel
  have e' : L " \"" = [' ', '"'] := by decide +kernel
  rw [e, e']
  simp only [List.cons_append, List.nil_append, readLine, takeWhile_quote _ _ h, if_neg hc]

theorem readLine_colour (s : List Slot) (r : List Char) :
    readLine s (L "texcolor " ++ r) = onLast (fun s => { s with colour := wordsOf r }) s := by
  have e : L "texcolor " = ['t', 'e', 'x', 'c', 'o', 'l', 'o', 'r', ' '] := by decide +kernel
  rw [e]
  rfl

theorem onLast_append (f : Slot → Slot) (l : List Slot) (s : Slot) : onLast f (l ++ [s]) = l ++ [f s] := by
  induction l with
  | nil => rfl
  | cons a l ih =>
    cases l with
    | nil => rfl
    | cons b l =>
      rw [List.cons_append, List.cons_append, onLast]
      · rw [List.cons_append] at ih
        rw [ih]; rfl
      · intro h; cases h

/-! ### The lines of an entry -/

/-- A text without line breaks and quotes. -/
def PlainText (s : String) : Prop := '\n' ∉ s.toList ∧ '"' ∉ s.toList

instance (s : String) : Decidable (PlainText s) := by unfold PlainText; infer_instance

/-- No line break or quote in any attribute of a texture. -/
def TexPlain (t : Tex) : Prop :=
  ∀ s ∈ [t.basepath, t.cls, t.scale, fmt t.c', fmt t.n', fmt t.s', fmt t.z', fmt t.g', fmt t.texcolor, fmt t.specscale,
    fmt t.parallaxscale, fmt t.glowcolor], PlainText s

instance (t : Tex) : Decidable (TexPlain t) := by unfold TexPlain; infer_instance

/-- What is assumed of Python's `str` of numbers here: no line break, quote or space. -/
def StrWord (str : PyNum → String) : Prop := ∀ n, PlainText (str n) ∧ ' ' ∉ (str n).toList

/-- The path of an image of the texture. -/
def imagePath (t : Tex) (o : Option String) : List Char := L t.basepath ++ '/' :: L (fmt o)

/-- The slot that belongs to a texture. -/
def slotOf (str : PyNum → String) (t : Tex) : Slot :=
  match t.kind with
  | .sky => { image := L "textures/sky.png" }
  | .dflt => { image := L "textures/default.png" }
  | .colour => { image := L t.basepath ++ L "/empty.png", colour := [L (str t.rgb.1), L (str t.rgb.2.1), L (str t.rgb.2.2)] }
  | .simple => { image := imagePath t t.c' }
  | .bump => { image := imagePath t t.c', more := [('n', imagePath t t.n'), ('s', imagePath t t.s')],
               colour := match t.texcolor with | some x => wordsOf (L x) | none => [] }
  | .parallax => { image := imagePath t t.c', more := [('n', imagePath t t.n'), ('s', imagePath t t.s'), ('z', imagePath t t.z')],
                   colour := match t.texcolor with | some x => wordsOf (L x) | none => [] }
  | .glow => { image := imagePath t t.c',
               more := [('n', imagePath t t.n'), ('s', imagePath t t.s'), ('z', imagePath t t.z'), ('g', imagePath t t.g')],
               colour := match t.texcolor with | some x => wordsOf (L x) | none => [] }

def optL (o : Option String) (pre : String) (post : List (List Char)) : List (List Char) :=
  match o with
  | some x => (L pre ++ L x) :: post
  | none => []

def mainL (str : PyNum → String) (t : Tex) (path tail : List Char) (idx : ℕ) : List Char :=
  L "texture c \"" ++ (path ++ '"' :: (tail ++ L " // " ++ L (str (.int idx)) ++ ' ' :: L t.cls))

def moreL (c : Char) (t : Tex) (o : Option String) : List Char := L "texture " ++ (c :: L " \"" ++ (imagePath t o ++ ['"']))

/-- The lines of an entry. -/
def entryLines (str : PyNum → String) (t : Tex) (idx : ℕ) : List (List Char) :=
  match t.kind with
  | .sky => [[], L "setshader stdworld",
      L "texture c \"" ++ (L "textures/sky.png" ++ '"' :: (L " 0 0 0 " ++ L t.scale ++ L " // 0 " ++ L t.cls))]
  | .dflt => [[], L "setshader stdworld",
      L "texture c \"" ++ (L "textures/default.png" ++ '"' :: (L " 0 0 0 " ++ L t.scale ++ L " // 1 " ++ L t.cls))]
  | .colour => [[], L "setshader stdworld", mainL str t (L t.basepath ++ L "/empty.png") (L " 0 0 0 1") idx,
      L "texcolor " ++ (L (str t.rgb.1) ++ ' ' :: (L (str t.rgb.2.1) ++ ' ' :: L (str t.rgb.2.2)))]
  | .simple => [[], L "setshader stdworld", mainL str t (imagePath t t.c') (L " 0 0 0 " ++ L t.scale) idx]
  | .bump => [L "setshader bumpspecmapworld", L "setshaderparam specscale 0.500000 0.500000 0.500000 " ++ L t.scale,
      mainL str t (imagePath t t.c') (L " 0 0 0 0.500000") idx, moreL 'n' t t.n', moreL 's' t t.s']
  | .parallax => [L "setshader bumpspecmapparallaxworld"] ++ optL t.specscale "setshaderparam specscale " [] ++
      optL t.parallaxscale "setshaderparam parallaxscale " [] ++
      [mainL str t (imagePath t t.c') (L " 0 0 0 0.500000") idx, moreL 'n' t t.n', moreL 's' t t.s', moreL 'z' t t.z'] ++
      optL t.texcolor "texcolor " [[]]
  | .glow => [L "setshader bumpspecmapparallaxglowworld"] ++ optL t.glowcolor "setshaderparam glowcolor " [] ++
      optL t.specscale "setshaderparam specscale " [] ++ optL t.parallaxscale "setshaderparam parallaxscale " [] ++
      [mainL str t (imagePath t t.c') (L " 0 0 0 0.500000") idx, moreL 'n' t t.n', moreL 's' t t.s', moreL 'z' t t.z', moreL 'g' t t.g'] ++
      optL t.texcolor "texcolor " [[]]

theorem optLine_text (o : Option String) (pre : String) : L (optLine o pre "\n") = textOf (optL o pre []) := by
  cases o with
  | none => simp [optLine, optL, textOf, L_eq]
  | some x =>
    have e : L "\n" = ['\n'] := by decide +kernel
    simp [optLine, optL, textOf, L_append, e]

theorem optLine_text2 (o : Option String) (pre : String) : L (optLine o pre "\n\n") = textOf (optL o pre [[]]) := by
  cases o with
  | none => simp [optLine, optL, textOf, L_eq]
  | some x =>
    have e : L "\n\n" = ['\n', '\n'] := by decide +kernel
    simp [optLine, optL, textOf, L_append, e]

theorem textOf_append (a b : List (List Char)) : textOf (a ++ b) = textOf a ++ textOf b := by simp [textOf]

theorem texLine_text (ch : Char) (s : String) (hs : L s = [ch]) (t : Tex) (o : Option String) :
    L (texLine s t o) = textOf [moreL ch t o] := by
  have e1 : L "\"\n" = ['"', '\n'] := by decide +kernel
  have e2 : L "/" = ['/'] := by decide +kernel
  simp [texLine, textOf, moreL, imagePath, L_append, e1, e2, hs]

theorem conf_text (str : PyNum → String) (t : Tex) (idx : ℕ) (h : t.kind = .bump → t.texcolor = none) :
    L (t.conf str idx) = textOf (entryLines str t idx) := by
  have l1 : L "\nsetshader stdworld\ntexture c \"textures/sky.png\" 0 0 0 " =
      '\n' :: (L "setshader stdworld" ++ '\n' :: (L "texture c \"" ++ (L "textures/sky.png" ++ '"' :: L " 0 0 0 "))) := by
    decide +kernel
  have l2 : L "\nsetshader stdworld\ntexture c \"textures/default.png\" 0 0 0 " =
      '\n' :: (L "setshader stdworld" ++ '\n' :: (L "texture c \"" ++ (L "textures/default.png" ++ '"' :: L " 0 0 0 "))) := by
    decide +kernel
  have l3 : L "\nsetshader stdworld\ntexture c \"" =
      '\n' :: (L "setshader stdworld" ++ '\n' :: L "texture c \"") := by decide +kernel
  have l4 : L "\n" = ['\n'] := by decide +kernel
  have l5 : L " " = [' '] := by decide +kernel
  have l6 : L "/empty.png\" 0 0 0 1 // " = L "/empty.png" ++ '"' :: (L " 0 0 0 1" ++ L " // ") := by decide +kernel
  have l7 : L "\ntexcolor " = '\n' :: L "texcolor " := by decide +kernel
  have l8 : L "/" = ['/'] := by decide +kernel
  have l9 : L "\" 0 0 0 " = '"' :: L " 0 0 0 " := by decide +kernel
  have l10 : L "setshader bumpspecmapworld\nsetshaderparam specscale 0.500000 0.500000 0.500000 " =
      L "setshader bumpspecmapworld" ++ '\n' :: L "setshaderparam specscale 0.500000 0.500000 0.500000 " := by decide +kernel
  have l11 : L "\ntexture c \"" = '\n' :: L "texture c \"" := by decide +kernel
  have l12 : L "\" 0 0 0 0.500000 // " = '"' :: (L " 0 0 0 0.500000" ++ L " // ") := by decide +kernel
  have l13 : L "setshader bumpspecmapparallaxworld\n" = L "setshader bumpspecmapparallaxworld" ++ ['\n'] := by decide +kernel
  have l14 : L "setshader bumpspecmapparallaxglowworld\n" = L "setshader bumpspecmapparallaxglowworld" ++ ['\n'] := by decide +kernel
  have tn := fun o => texLine_text 'n' "n" (by decide +kernel) t o
  have ts := fun o => texLine_text 's' "s" (by decide +kernel) t o
  have tz := fun o => texLine_text 'z' "z" (by decide +kernel) t o
  have tg := fun o => texLine_text 'g' "g" (by decide +kernel) t o
  unfold Tex.conf entryLines
  cases hk : t.kind
  · simp only [L_append, l1, l4, textOf, List.flatMap_cons, List.flatMap_nil, List.append_assoc, List.cons_append, List.nil_append, List.append_nil]
  · simp only [L_append, l2, l4, textOf, List.flatMap_cons, List.flatMap_nil, List.append_assoc, List.cons_append, List.nil_append, List.append_nil]
  · simp only [L_append, l3, l4, l5, l6, l7, mainL, textOf, List.flatMap_cons, List.flatMap_nil, List.append_assoc, List.cons_append, List.nil_append, List.append_nil]
  · simp only [L_append, l3, l4, l5, l8, l9, mainL, imagePath, textOf, List.flatMap_cons, List.flatMap_nil, List.append_assoc, List.cons_append, List.nil_append, List.append_nil]
  · rw [h hk]
    have e0 : optLine none "texcolor " "" = "" := rfl
    simp only [e0, String.append_empty]
    simp only [L_append, tn, ts, l10, l11, l12, l4, l5, l8, mainL, imagePath, textOf, List.flatMap_cons, List.flatMap_nil, List.append_assoc, List.cons_append, List.nil_append, List.append_nil]
  · simp only [L_append, optLine_text, optLine_text2, textOf_append, tn, ts, tz, l11, l12, l13, l4, l5, l8]
    simp only [mainL, imagePath, textOf, List.flatMap_cons, List.flatMap_nil, List.append_assoc, List.cons_append, List.nil_append, List.append_nil]
  · simp only [L_append, optLine_text, optLine_text2, textOf_append, tn, ts, tz, tg, l11, l12, l14, l4, l5, l8]
    simp only [mainL, imagePath, textOf, List.flatMap_cons, List.flatMap_nil, List.append_assoc, List.cons_append, List.nil_append, List.append_nil]

theorem plain_nl {s : String} (h : PlainText s) : '\n' ∉ L s := by rw [L_eq]; exact h.1
theorem plain_quote {s : String} (h : PlainText s) : '"' ∉ L s := by rw [L_eq]; exact h.2

theorem path_quote {t : Tex} {o : Option String} (h1 : PlainText t.basepath) (h2 : PlainText (fmt o)) : '"' ∉ imagePath t o := by
  have := plain_quote h1
  have := plain_quote h2
  simp [imagePath, *]

theorem path_nl {t : Tex} {o : Option String} (h1 : PlainText t.basepath) (h2 : PlainText (fmt o)) : '\n' ∉ imagePath t o := by
  have := plain_nl h1
  have := plain_nl h2
  simp [imagePath, *]

theorem idle_L (s : String) (r : List Char) (h : (s.toList.take 1).length = 1 ∧ Idle s.toList) : Idle (L s ++ r) := by
  unfold Idle at *
  rw [L_eq]
  cases hs : s.toList with
  | nil => rw [hs] at h; simp at h
  | cons c l => rw [hs] at h; simpa using h.2

theorem idle_optL (o : Option String) (s : String) (h : (s.toList.take 1).length = 1 ∧ Idle s.toList) (slots : List Slot) :
    (optL o s []).foldl readLine slots = slots := by
  cases o with
  | none => rfl
  | some x => simp [optL, readLine_idle _ _ (idle_L s _ h)]

/-- The effect of an optional colour line on the slot started last. -/
theorem read_texcolor (o : Option String) (l : List Slot) (s : Slot) (hs : s.colour = []) :
    (optL o "texcolor " [[]]).foldl readLine (l ++ [s]) =
      l ++ [{ s with colour := match o with | some x => wordsOf (L x) | none => [] }] := by
  cases o with
  | none => obtain ⟨a, b, c⟩ := s; simp only at hs; subst hs; rfl
  | some x =>
    simp only [optL, List.foldl_cons, List.foldl_nil, readLine_colour, onLast_append]
    rw [readLine_idle _ _ (by decide)]

set_option maxHeartbeats 1000000 in
/-- Reading an entry starts one slot, the one of its texture. -/
theorem read_entry (str : PyNum → String) (hw : StrWord str) (t : Tex) (ht : TexPlain t) (hb : t.kind = .bump → t.texcolor = none)
    (idx : ℕ) (slots : List Slot) : (entryLines str t idx).foldl readLine slots = slots ++ [slotOf str t] := by
  have p1 : PlainText t.basepath := ht _ (by simp)
  have pc : PlainText (fmt t.c') := ht _ (by simp)
  have pn : PlainText (fmt t.n') := ht _ (by simp)
  have ps : PlainText (fmt t.s') := ht _ (by simp)
  have pz : PlainText (fmt t.z') := ht _ (by simp)
  have pg : PlainText (fmt t.g') := ht _ (by simp)
  have i0 : ∀ s, readLine s [] = s := fun s => readLine_idle _ _ (by decide)
  have i1 : ∀ s, readLine s (L "setshader stdworld") = s := fun s => by
    have := readLine_idle s _ (idle_L "setshader stdworld" [] (by decide +kernel)); simpa using this
  have i2 : ∀ s, readLine s (L "setshader bumpspecmapworld") = s := fun s => by
    have := readLine_idle s _ (idle_L "setshader bumpspecmapworld" [] (by decide +kernel)); simpa using this
  have i3 : ∀ s, readLine s (L "setshader bumpspecmapparallaxworld") = s := fun s => by
    have := readLine_idle s _ (idle_L "setshader bumpspecmapparallaxworld" [] (by decide +kernel)); simpa using this
  have i4 : ∀ s, readLine s (L "setshader bumpspecmapparallaxglowworld") = s := fun s => by
    have := readLine_idle s _ (idle_L "setshader bumpspecmapparallaxglowworld" [] (by decide +kernel)); simpa using this
  have i5 : ∀ s r, readLine s (L "setshaderparam specscale 0.500000 0.500000 0.500000 " ++ r) = s := fun s r =>
    readLine_idle s _ (idle_L "setshaderparam specscale 0.500000 0.500000 0.500000 " r (by decide +kernel))
  have o1 := fun o => idle_optL o "setshaderparam specscale " (by decide +kernel)
  have o2 := fun o => idle_optL o "setshaderparam parallaxscale " (by decide +kernel)
  have o3 := fun o => idle_optL o "setshaderparam glowcolor " (by decide +kernel)
  have m1 : ∀ s path tail, '"' ∉ path → readLine s (mainL str t path tail idx) = s ++ [{ image := path }] := fun s path tail h =>
    readLine_main s path _ h
  have m2 : ∀ l s c o, c ≠ 'c' → PlainText (fmt o) → readLine (l ++ [s]) (moreL c t o) =
      l ++ [{ s with more := s.more ++ [(c, imagePath t o)] }] := fun l s c o hc ho => by
    unfold moreL
    rw [readLine_more _ _ hc _ _ (path_quote p1 ho), onLast_append]
  have q1 : '"' ∉ L "textures/sky.png" := by rw [L_eq]; decide +kernel
  have q2 : '"' ∉ L "textures/default.png" := by rw [L_eq]; decide +kernel
  have q3 : '"' ∉ L t.basepath ++ L "/empty.png" := by
    have : '"' ∉ L "/empty.png" := by rw [L_eq]; decide +kernel
    simp [this, plain_quote p1]
  have w : ∀ n, ' ' ∉ L (str n) := fun n => by rw [L_eq]; exact (hw n).2
  unfold entryLines slotOf
  cases hk : t.kind
  · simp only [List.foldl_cons, List.foldl_nil, i0, i1, readLine_main _ _ _ q1]
  · simp only [List.foldl_cons, List.foldl_nil, i0, i1, readLine_main _ _ _ q2]
  · simp only [List.foldl_cons, List.foldl_nil, i0, i1, m1 _ _ _ q3, readLine_colour, onLast_append]
    rw [wordsOf_append _ _ (w _), wordsOf_append _ _ (w _), wordsOf_last _ (w _)]
  · simp only [List.foldl_cons, List.foldl_nil, i0, i1, m1 _ _ _ (path_quote p1 pc)]
  · simp only [List.foldl_cons, List.foldl_nil, i2, i5, m1 _ _ _ (path_quote p1 pc), m2 _ _ 'n' _ (by decide) pn, m2 _ _ 's' _ (by decide) ps]
    rw [hb hk]
    rfl
  · simp only [List.foldl_append, List.foldl_cons, List.foldl_nil, i3, o1, o2, m1 _ _ _ (path_quote p1 pc),
      m2 _ _ 'n' _ (by decide) pn, m2 _ _ 's' _ (by decide) ps, m2 _ _ 'z' _ (by decide) pz]
    rw [read_texcolor _ _ _ rfl]
    rfl
  · simp only [List.foldl_append, List.foldl_cons, List.foldl_nil, i4, o1, o2, o3, m1 _ _ _ (path_quote p1 pc),
      m2 _ _ 'n' _ (by decide) pn, m2 _ _ 's' _ (by decide) ps, m2 _ _ 'z' _ (by decide) pz, m2 _ _ 'g' _ (by decide) pg]
    rw [read_texcolor _ _ _ rfl]
    rfl

theorem nl_optL (o : Option String) (s : String) (post : List (List Char)) (h : PlainText (fmt o)) (hs : PlainText s)
    (hp : ∀ l ∈ post, '\n' ∉ l) : ∀ l ∈ optL o s post, '\n' ∉ l := by
  cases o with
  | none => intro l hl; cases hl
  | some x =>
    intro l hl
    rcases List.mem_cons.1 hl with rfl | hl
    · have := plain_nl hs
      have := plain_nl (s := x) h
      simp [*]
    · exact hp l hl

/-- The lines of an entry have no line breaks. -/
theorem nl_entry (str : PyNum → String) (hw : StrWord str) (t : Tex) (ht : TexPlain t) (idx : ℕ) :
    ∀ l ∈ entryLines str t idx, '\n' ∉ l := by
  have p1 : PlainText t.basepath := ht _ (by simp)
  have p2 : PlainText t.cls := ht _ (by simp)
  have p3 : PlainText t.scale := ht _ (by simp)
  have pc : PlainText (fmt t.c') := ht _ (by simp)
  have pn : PlainText (fmt t.n') := ht _ (by simp)
  have ps : PlainText (fmt t.s') := ht _ (by simp)
  have pz : PlainText (fmt t.z') := ht _ (by simp)
  have pg : PlainText (fmt t.g') := ht _ (by simp)
  have px : PlainText (fmt t.texcolor) := ht _ (by simp)
  have py : PlainText (fmt t.specscale) := ht _ (by simp)
  have pw : PlainText (fmt t.parallaxscale) := ht _ (by simp)
  have pv : PlainText (fmt t.glowcolor) := ht _ (by simp)
  have lit : ∀ s : String, '\n' ∉ s.toList → '\n' ∉ L s := fun s h => by rw [L_eq]; exact h
  have a1 := lit "setshader stdworld" (by decide +kernel)
  have a2 := lit "texture c \"" (by decide +kernel)
  have a3 := lit "textures/sky.png" (by decide +kernel)
  have a4 := lit " 0 0 0 " (by decide +kernel)
  have a5 := lit " // 0 " (by decide +kernel)
  have a6 := lit "textures/default.png" (by decide +kernel)
  have a7 := lit " // 1 " (by decide +kernel)
  have a8 := lit "/empty.png" (by decide +kernel)
  have a9 := lit " 0 0 0 1" (by decide +kernel)
  have a10 := lit " // " (by decide +kernel)
  have a11 := lit "texcolor " (by decide +kernel)
  have a12 := lit "setshader bumpspecmapworld" (by decide +kernel)
  have a13 := lit "setshaderparam specscale 0.500000 0.500000 0.500000 " (by decide +kernel)
  have a14 := lit " 0 0 0 0.500000" (by decide +kernel)
  have a15 := lit "setshader bumpspecmapparallaxworld" (by decide +kernel)
  have a16 := lit "setshader bumpspecmapparallaxglowworld" (by decide +kernel)
  have a17 := lit "texture " (by decide +kernel)
  have a18 := lit " \"" (by decide +kernel)
  have q1 : ¬ '\n' = '"' := by decide
  have q2 : ¬ '\n' = ' ' := by decide
  have b1 := plain_nl p1
  have b2 := plain_nl p2
  have b3 := plain_nl p3
  have hn : ∀ n, '\n' ∉ L (str n) := fun n => plain_nl (hw n).1
  have hmain : ∀ path tail, '\n' ∉ path → '\n' ∉ tail → '\n' ∉ mainL str t path tail idx := by
    intro path tail h1 h2
    simp [mainL, *]
  have hmore : ∀ c o, c ≠ '\n' → PlainText (fmt o) → '\n' ∉ moreL c t o := by
    intro c o hc ho
    have := path_nl p1 ho
    simp [moreL, *, hc.symm]
  have e1 := nl_optL t.specscale "setshaderparam specscale " [] py (by decide +kernel) (by simp)
  have e2 := nl_optL t.parallaxscale "setshaderparam parallaxscale " [] pw (by decide +kernel) (by simp)
  have e3 := nl_optL t.glowcolor "setshaderparam glowcolor " [] pv (by decide +kernel) (by simp)
  have e4 := nl_optL t.texcolor "texcolor " [[]] px (by decide +kernel) (by simp)
  have c1 := hmain (imagePath t t.c') (L " 0 0 0 0.500000") (path_nl p1 pc) a14
  have c2 := hmore 'n' t.n' (by decide) pn
  have c3 := hmore 's' t.s' (by decide) ps
  have c4 := hmore 'z' t.z' (by decide) pz
  have c5 := hmore 'g' t.g' (by decide) pg
  unfold entryLines
  cases hk : t.kind <;> simp only [List.mem_append, List.mem_cons, List.not_mem_nil, or_false]
  · rintro l (rfl | rfl | rfl) <;> simp only [List.mem_append, List.mem_cons, List.not_mem_nil, q1, q2, a1, a2, a3, a4, a5, a6, a7, b2, hn, or_self, false_or, or_false, b3, not_false_eq_true]
  · rintro l (rfl | rfl | rfl) <;> simp only [List.mem_append, List.mem_cons, List.not_mem_nil, q1, q2, a1, a2, a3, a4, a5, a6, a7, b2, hn, or_self, false_or, or_false, b3, not_false_eq_true]
  · rintro l (rfl | rfl | rfl | rfl)
    · simp
    · exact a1
    · exact hmain _ _ (by simp [*]) a9
    · simp [*]
  · rintro l (rfl | rfl | rfl)
    · simp
    · exact a1
    · exact hmain _ _ (path_nl p1 pc) (by simp [*])
  · rintro l (rfl | rfl | rfl | rfl | rfl)
    · exact a12
    · simp [*]
    · exact c1
    · exact c2
    · exact c3
  · rintro l ((((rfl | h) | h) | (rfl | rfl | rfl | rfl)) | h)
    · exact a15
    · exact e1 l h
    · exact e2 l h
    · exact c1
    · exact c2
    · exact c3
    · exact c4
    · exact e4 l h
  · rintro l (((((rfl | h) | h) | h) | (rfl | rfl | rfl | rfl | rfl)) | h)
    · exact a16
    · exact e3 l h
    · exact e1 l h
    · exact e2 l h
    · exact c1
    · exact c2
    · exact c3
    · exact c4
    · exact c5
    · exact e4 l h

/-- The lines of the header. -/
def headerLines (author mapName : String) : List (List Char) :=
  [[], L "// " ++ (L mapName ++ (L " by " ++ (L author ++ L " (maps/base)"))), L "// Config generated by Red Eclipse Map Generator", [],
   L "// Variables stored in map file, may be uncommented here, or changed from editmode."]

theorem header_text (author mapName : String) : L (confHeader author mapName) = textOf (headerLines author mapName) := by
  have l1 : L "\n// " = '\n' :: L "// " := by decide +kernel
  have l2 : L " (maps/base)\n// Config generated by Red Eclipse Map Generator\n\n" =
      L " (maps/base)" ++ '\n' :: (L "// Config generated by Red Eclipse Map Generator" ++ ['\n', '\n']) := by decide +kernel
  have l3 : L "// Variables stored in map file, may be uncommented here, or changed from editmode.\n" =
      L "// Variables stored in map file, may be uncommented here, or changed from editmode." ++ ['\n'] := by decide +kernel
  simp only [confHeader, headerLines, L_append, l1, l2, l3, textOf, List.flatMap_cons, List.flatMap_nil, List.append_assoc, List.cons_append,
    List.nil_append, List.append_nil]

theorem L_join (l : List String) : L (String.join l) = l.flatMap L := by
  have key : ∀ (l : List String) (a : String), L (l.foldl (fun r s => r ++ s) a) = L a ++ l.flatMap L := by
    intro l
    induction l with
    | nil => intro a; simp
    | cons x l ih => intro a; simp [ih, L_append]
  have := key l ""
  have e : L "" = [] := by decide +kernel
  rw [e, List.nil_append] at this
  exact this

/-- A line of the config that concerns the game but not its textures. -/
def GameLine (s : String) : Prop := '\n' ∉ s.toList ∧ Idle s.toList

instance (s : String) : Decidable (GameLine s) := by unfold GameLine; infer_instance

/-- The text of the config file: what `emit_conf` writes and the lines appended by `output` (cli/__init__.py 29-32). -/
def confText (str : PyNum → String) (m : TexMan) (author mapName : String) (extra : List String) : String :=
  m.emitConf str author mapName ++ String.join (extra.map fun l => l ++ "\n")

/-- Reading a config gives the slots of the textures of the atlas, in order. -/
theorem read_conf (str : PyNum → String) (hw : StrWord str) (m : TexMan) (author mapName : String) (ha : PlainText author) (hn : PlainText mapName)
    (extra : List String) (he : ∀ l ∈ extra, GameLine l) (ht : ∀ p ∈ m.atlas, TexPlain p.2 ∧ (p.2.kind = .bump → p.2.texcolor = none)) :
    readConf (confText str m author mapName extra).toList = m.atlas.map fun p => slotOf str p.2 := by
  have hat : ∀ (l : List ((ℕ × Tex) × ℕ)), (∀ p ∈ l, p.1 ∈ m.atlas) →
      (∀ x ∈ l.flatMap (fun p => entryLines str p.1.2 p.2), '\n' ∉ x) ∧
      L (String.join (l.map fun p => p.1.2.conf str p.2)) = textOf (l.flatMap fun p => entryLines str p.1.2 p.2) ∧
      ∀ slots, (l.flatMap fun p => entryLines str p.1.2 p.2).foldl readLine slots = slots ++ l.map fun p => slotOf str p.1.2 := by
    intro l hl
    refine ⟨?_, ?_, ?_⟩
    · intro x hx
      obtain ⟨p, hp, hx⟩ := List.mem_flatMap.1 hx
      exact nl_entry str hw _ (ht _ (hl p hp)).1 _ x hx
    · rw [L_join]
      clear hn ha
      induction l with
      | nil => rfl
      | cons p l ih =>
        rw [List.map_cons, List.flatMap_cons, List.flatMap_cons, textOf_append, ih fun p hp => hl p (List.mem_cons_of_mem _ hp),
          conf_text str _ _ (ht _ (hl p (by simp))).2]
    · induction l with
      | nil => intro slots; simp
      | cons p l ih =>
        intro slots
        rw [List.flatMap_cons, List.foldl_append, read_entry str hw _ (ht _ (hl p (by simp))).1 (ht _ (hl p (by simp))).2,
          ih fun p hp => hl p (List.mem_cons_of_mem _ hp)]
        simp
  have hz : ∀ p ∈ m.atlas.zipIdx, p.1 ∈ m.atlas := fun p hp => by
    obtain ⟨⟨a, b⟩, j⟩ := p
    exact (List.mem_zipIdx' hp).2 ▸ List.getElem_mem _
  obtain ⟨h1, h2, h3⟩ := hat m.atlas.zipIdx hz
  have hx : L (String.join (extra.map fun l => l ++ "\n")) = textOf (extra.map L) := by
    rw [L_join]
    have e : L "\n" = ['\n'] := by decide +kernel
    simp [textOf, List.flatMap_map, L_append, e]
  have hnlx : ∀ l ∈ extra.map L, '\n' ∉ l := by
    intro l hl
    obtain ⟨s, hs, rfl⟩ := List.mem_map.1 hl
    rw [L_eq]; exact (he s hs).1
  have hnlh : ∀ l ∈ headerLines author mapName, '\n' ∉ l := by
    have lit : ∀ s : String, '\n' ∉ s.toList → '\n' ∉ L s := fun s h => by rw [L_eq]; exact h
    have a1 := lit "// " (by decide +kernel)
    have a2 := lit " by " (by decide +kernel)
    have a3 := lit " (maps/base)" (by decide +kernel)
    have a4 := lit "// Config generated by Red Eclipse Map Generator" (by decide +kernel)
    have a5 := lit "// Variables stored in map file, may be uncommented here, or changed from editmode." (by decide +kernel)
    have b1 := plain_nl ha
    have b2 := plain_nl hn
    simp only [headerLines, List.mem_cons, List.not_mem_nil, or_false]
    rintro l (rfl | rfl | rfl | rfl | rfl) <;> simp only [List.mem_append, List.not_mem_nil, a1, a2, a3, a4, a5, b1, b2, or_self, not_false_eq_true]
  have htext : (confText str m author mapName extra).toList =
      textOf (headerLines author mapName ++ (m.atlas.zipIdx.flatMap (fun p => entryLines str p.1.2 p.2)) ++ extra.map L) ++ [] := by
    rw [← L_eq, confText, TexMan.emitConf, L_append, L_append, header_text, h2, hx, textOf_append, textOf_append, List.append_nil]
  rw [readConf, htext, linesOf_textOf, List.foldl_append, List.foldl_append, List.foldl_append]
  · have i0 : ∀ s, readLine s [] = s := fun s => readLine_idle _ _ (by decide)
    have hh : (headerLines author mapName).foldl readLine [] = [] := by
      have e1 := fun r s => readLine_idle s _ (idle_L "// " r (by decide +kernel))
      have e2 : ∀ s, readLine s (L "// Config generated by Red Eclipse Map Generator") = s := fun s => by
        have := readLine_idle s _ (idle_L "// Config generated by Red Eclipse Map Generator" [] (by decide +kernel)); simpa using this
      have e3 : ∀ s, readLine s (L "// Variables stored in map file, may be uncommented here, or changed from editmode.") = s := fun s => by
        have := readLine_idle s _
          (idle_L "// Variables stored in map file, may be uncommented here, or changed from editmode." [] (by decide +kernel))
        simpa using this
      simp only [headerLines, List.foldl_cons, List.foldl_nil, i0, e1, e2, e3]
    rw [hh, h3]
    have hex : ∀ (l : List String) (s : List Slot), (∀ x ∈ l, GameLine x) → (l.map L).foldl readLine s = s := by
      intro l
      induction l with
      | nil => intro s _; rfl
      | cons x l ih =>
        intro s hl
        rw [List.map_cons, List.foldl_cons, readLine_idle _ _ (by rw [L_eq]; exact (hl x (by simp)).2)]
        exact ih s fun x hx => hl x (List.mem_cons_of_mem _ hx)
    rw [hex extra _ he]
    have hlast : linesOf [] = [[]] := rfl
    rw [hlast, List.foldl_cons, List.foldl_nil, i0, List.nil_append]
    have : (m.atlas.zipIdx.map fun p => slotOf str p.1.2) = (m.atlas.zipIdx.map Prod.fst).map fun p => slotOf str p.2 := by
      rw [List.map_map]; rfl
    rw [this, List.zipIdx_map_fst]
  · intro l hl
    rcases List.mem_append.1 hl with hl | hl
    · rcases List.mem_append.1 hl with hl | hl
      · exact hnlh l hl
      · exact h1 l hl
    · exact hnlx l hl

/-! ### The config of a history of requests -/

/-- The lines that world flavours add are game lines. -/
theorem flavour_lines (fl : List String) : ∀ l ∈ (updateFlavours [] fl).1, GameLine l := by
  have key : ∀ (fl : List String) (e : List String), (∀ l ∈ e, GameLine l) → ∀ l ∈ (updateFlavours e fl).1, GameLine l := by
    intro fl
    induction fl with
    | nil => intro e he; exact he
    | cons s fl ih =>
      intro e he
      unfold updateFlavours
      cases hf : flavourNamed s with
      | error x => exact he
      | ok ls =>
        refine ih _ ?_
        have h3 : ∀ l ∈ Flavour.space_station.lines ++ Flavour.crushed_blacks.lines ++ Flavour.maliwan.lines, GameLine l := by decide +kernel
        have : ∀ l ∈ ls, GameLine l := by
          unfold flavourNamed at hf
          split_ifs at hf <;> cases hf <;> intro l hl <;> refine h3 l ?_ <;> simp [hl]
        intro l hl
        rcases List.mem_append.1 hl with hl | hl
        · exact he l hl
        · exact this l hl
  exact key fl [] (by simp)

/-- What is assumed of a theme: no line breaks or quotes in its textures, and no bump map with a colour. -/
def ThemePlain (theme : List (String × Tex)) : Prop := ∀ p ∈ theme, TexPlain p.2 ∧ (p.2.kind = .bump → p.2.texcolor = none)

instance (theme : List (String × Tex)) : Decidable (ThemePlain theme) := by unfold ThemePlain; infer_instance

theorem colourTex_plain (r g b : PyNum) : TexPlain (colourTex r g b) := by
  have : TexPlain (colourTex (.int 0) (.int 0) (.int 0)) := by decide +kernel
  exact this

theorem known_plain (str : PyNum → String) (theme : List (String × Tex)) (ht : ThemePlain theme) (m : TexMan) (hi : TexInv m)
    (hk : Known str theme m) : ∀ p ∈ m.atlas, TexPlain p.2 ∧ (p.2.kind = .bump → p.2.texcolor = none) := by
  rintro ⟨i, t⟩ hp
  obtain ⟨j, hj, he⟩ := List.getElem_of_mem hp
  have hij : i = j := by
    have := congrArg (fun l => l[j]?) hi.idx
    simp only [List.getElem?_map, List.getElem?_eq_getElem hj, he, Option.map_some, List.getElem?_range hj] at this
    exact Option.some.inj this
  subst hij
  obtain ⟨k, _, h1⟩ := atlas_key _ hi i t (by rw [List.getElem?_eq_getElem hj, he])
  rcases hk _ _ h1 with h' | ⟨r, g, b, _, rfl⟩
  · unfold themeTex at h'
    cases hf : theme.reverse.find? (fun p => p.1 = k) with
    | some p =>
      rw [hf] at h'
      have := ht p (List.mem_reverse.1 (List.mem_of_find?_eq_some hf))
      rw [Option.some.inj h'] at this
      exact this
    | none =>
      rw [hf] at h'
      simp only at h'
      have : ∀ t ∈ [skyTex, defaultTex], TexPlain t ∧ (t.kind = .bump → t.texcolor = none) := by decide +kernel
      split_ifs at h'
      · exact this _ (by simp [← Option.some.inj h'])
      · exact this _ (by simp [← Option.some.inj h'])
  · exact ⟨colourTex_plain r g b, fun h => by cases h⟩

/-- C90: whatever textures a generator asks for, the game that reads the config (after the lines of world flavours have been
added) finds, under the number that a request got, the images and the colour of the texture that was asked for. -/
def C90_config : Prop := ∀ (str : PyNum → String), StrOk str → StrWord str → ∀ th ∈ themes, ∀ (qs : List TexReq) (fl : List String),
  ∀ q i, (q, .ok i) ∈ (serve str (TexMan.init th.texs) qs).2 → ∃ t, Asks str th.texs q t ∧
    (readConf (confText str (serve str (TexMan.init th.texs) qs).1 "Python" "test" (updateFlavours [] fl).1).toList)[i]? = some (slotOf str t)

/-- C90, what holds: the claim for every theme without line breaks and quotes in its attributes, without a texture named like a
colour and without a coloured bump map; the game finds no other textures than those of the manager. Missing: the default theme,
whose two coloured bump maps have the next entry on the line of their colour. -/
theorem C90_config_partial (str : PyNum → String) (hs : StrOk str) (hw : StrWord str) (theme : List (String × Tex)) (ht : ThemePlain theme)
    (hc : ∀ p ∈ theme, ∀ r g b, p.1 ≠ colourName str r g b) (qs : List TexReq) (author mapName : String) (ha : PlainText author)
    (hn : PlainText mapName) (fl : List String) :
    let r := serve str (TexMan.init theme) qs
    let slots := readConf (confText str r.1 author mapName (updateFlavours [] fl).1).toList
    slots.length = r.1.atlas.length ∧ ∀ q i, (q, .ok i) ∈ r.2 → ∃ t, Asks str theme q t ∧ slots[i]? = some (slotOf str t) := by
  obtain ⟨h, hb⟩ := texInit theme
  obtain ⟨c1, c2, c3, c4⟩ := serve_spec str (TexMan.init theme) h qs
  have hk : Known str theme (serve str (TexMan.init theme) qs).1 := known_serve str theme _ (known_init str theme) qs
  have hread := read_conf str hw (serve str (TexMan.init theme) qs).1 author mapName ha hn _ (flavour_lines fl)
    (known_plain str theme ht _ c1 hk)
  simp only [hread]
  refine ⟨by simp, fun q i hq => ?_⟩
  obtain ⟨t, h1, h2⟩ := c1.tex _ _ (c3 q i hq)
  have hth := themeTex_colour str theme hc
  refine ⟨t, ?_, by simp [List.getElem?_map, h2]⟩
  rcases hk _ _ h1 with h' | ⟨r, g, b, e, rfl⟩
  · cases q with
    | name s => exact .inl h'
    | colour r g b => simp only [TexReq.key] at h'; rw [hth] at h'; cases h'
  · cases q with
    | name s => exact .inr ⟨r, g, b, e, rfl⟩
    | colour r' g' b' =>
      obtain ⟨rfl, rfl, rfl⟩ := (colourName_inj str hs _ _ _ _ _ _).1 e
      rfl

/-- The themes but the default one, and the manager of the program without a theme. -/
example : ThemePlain minecraftTheme.texs := by decide +kernel
example : ThemePlain paperTheme.texs := by decide +kernel
example : ThemePlain primaryTheme.texs := by decide +kernel
example : ThemePlain [] := by decide

theorem someStr_word : StrWord someStr := by
  intro n
  have h : ∀ c ∈ (someStr n).toList, c = 'a' ∨ c = 'b' := by
    intro c hc
    unfold someStr at hc
    simp only [String.toList_ofList, List.mem_append, List.mem_replicate] at hc
    rcases hc with ⟨-, rfl⟩ | hc
    · exact .inl rfl
    · split_ifs at hc <;> simp_all
  refine ⟨⟨fun hc => ?_, fun hc => ?_⟩, fun hc => ?_⟩ <;> rcases h _ hc with h | h <;> exact absurd h (by decide)

/-- The characters of the entry of a bump map, for evaluation. -/
def bumpChars (str : PyNum → String) (t : Tex) (i : ℕ) : List Char :=
  L "setshader bumpspecmapworld\n" ++ L "setshaderparam specscale 0.500000 0.500000 0.500000 " ++ L t.scale ++ L "\ntexture c \"" ++
    L t.basepath ++ L "/" ++ L (fmt t.c') ++ L "\" 0 0 0 0.500000 // " ++ L (str (.int i)) ++ L " " ++ L t.cls ++ L "\n" ++
    (L "texture " ++ L "n" ++ L " \"" ++ L t.basepath ++ L "/" ++ L (fmt t.n') ++ L "\"\n") ++
    (L "texture " ++ L "s" ++ L " \"" ++ L t.basepath ++ L "/" ++ L (fmt t.s') ++ L "\"\n") ++ L (optLine t.texcolor "texcolor " "")

theorem bump_chars (str : PyNum → String) (t : Tex) (i : ℕ) (h : t.kind = .bump) : L (t.conf str i) = bumpChars str t i := by
  rw [bump_conf str t i h]
  unfold bumpBody bumpChars texLine
  generalize optLine t.texcolor "texcolor " "" = o
  simp only [L_append, List.append_assoc]

theorem two_bumps (str : PyNum → String) (m : TexMan) (t t' : Tex) (ha : m.atlas = [(0, skyTex), (1, defaultTex), (2, t), (3, t')])
    (h : t.kind = .bump) (h' : t'.kind = .bump) (author mapName : String) : (confText str m author mapName []).toList =
      textOf (headerLines author mapName) ++ (textOf (entryLines str skyTex 0) ++ (textOf (entryLines str defaultTex 1) ++
        (bumpChars str t 2 ++ bumpChars str t' 3))) := by
  have p0 : skyTex.kind = .bump → skyTex.texcolor = none := by decide
  have p1 : defaultTex.kind = .bump → defaultTex.texcolor = none := by decide
  rw [← L_eq, confText, TexMan.emitConf, ha, L_append, L_append, header_text, L_join, L_join]
  simp only [List.zipIdx_cons, List.zipIdx_nil, List.map_cons, List.map_nil, List.flatMap_cons, List.flatMap_nil]
  rw [conf_text _ _ _ p0, conf_text _ _ _ p1, bump_chars _ _ _ h, bump_chars _ _ _ h']
  simp only [List.append_nil, Nat.zero_add, Nat.reduceAdd]

set_option maxHeartbeats 2000000 in
/-- The default theme: a request for `tex4` after which `tex5` is asked for gets a colour of four words. -/
theorem C90_config_false : ¬ C90_config := by
  intro h
  have hask : (askTex someStr (TexMan.init dullTheme.texs) (.name "tex4")).2 = .ok 2 := by
    have : (match (askTex someStr (TexMan.init dullTheme.texs) (.name "tex4")).2 with | .ok i => decide (i = 2) | .error _ => false) = true := by
      decide +kernel
    split at this
    · rename_i i e
      rw [e, of_decide_eq_true this]
    · cases this
  have hin : (TexReq.name "tex4", Except.ok 2) ∈ (serve someStr (TexMan.init dullTheme.texs) [.name "tex4", .name "tex5"]).2 := by
    simp only [serve]
    rw [hask]
    exact List.mem_cons_self
  obtain ⟨t, h1, h2⟩ := h someStr someStr_ok someStr_word dullTheme (by simp [themes]) [.name "tex4", .name "tex5"] [] (.name "tex4") 2 hin
  have h1' : themeTex dullTheme.texs "tex4" = some t ∨ ∃ r g b, "tex4" = colourName someStr r g b ∧ t = colourTex r g b := h1
  clear h1 h hin hask
  have hnc : ¬ ∃ r g b, "tex4" = colourName someStr r g b ∧ t = colourTex r g b := fun ⟨r, g, b, e, _⟩ =>
    not_colour someStr "tex4" (by decide +kernel) r g b e
  have h1 := h1'.resolve_right hnc
  clear h1' hnc
  have e : themeTex dullTheme.texs "tex4" = some tex4 := by decide +kernel
  have ht : t = tex4 := Option.some.inj (h1.symm.trans e)
  clear e h1
  rw [ht] at h2
  clear ht
  have ha : (serve someStr (TexMan.init dullTheme.texs) [.name "tex4", .name "tex5"]).1.atlas =
      [(0, skyTex), (1, defaultTex), (2, tex4), (3, tex5)] := by decide +kernel
  have hx : updateFlavours [] [] = ([], .ok ()) := rfl
  rw [hx, two_bumps _ _ _ _ ha rfl rfl] at h2
  revert h2
  decide +kernel

/-! ### The config of a run -/

theorem inv_init (str : PyNum → String) (I : TexMan → Prop) (H : ∀ tm c, I tm → I (askColour str tm c).1) (m : Model) (tm : TexMan)
    (h : I tm) : I (initTextures str m tm).1 := by
  by_cases hm : m = .original_spawn_room
  · subst hm
    exact H _ (.flt (1 / 10), .flt (1 / 10), .flt (1 / 10)) (H _ (.int 1, .int 0, .int 0) (H tm (.flt (9 / 10), .flt (9 / 10), .flt (9 / 10)) h))
  · have : initTextures str m tm = (tm, ⟨0, 0, 0⟩) := by
      cases m <;> first | rfl | exact absurd rfl hm
    rw [this]; exact h

theorem inv_tex (str : PyNum → String) (I : TexMan → Prop) (H : ∀ tm c, I tm → I (askColour str tm c).1) (m : Model) (q : Quarter)
    (a : SpawnTex) (tm : TexMan) (h : I tm) (c : PyNum × PyNum × PyNum) : I (modelTex str m q a tm c).1 := by
  by_cases hm : m = .original_spawn_room
  · subst hm
    simp only [modelTex]
    split_ifs <;> exact h
  · have : modelTex str m q a tm c = askColour str tm (shown m q c) := by
      cases m <;> first | rfl | exact absurd rfl hm
    rw [this]
    exact H tm _ h

/-- What requests for colours preserve, rendering rooms preserves. -/
theorem inv_rooms (str : PyNum → String) (I : TexMan → Prop) (H : ∀ tm c, I tm → I (askColour str tm c).1) (files : Model → VoxFile)
    (rs : List (Room Model)) (st st' : (World ℤ × TexMan) × List Extra × Tape)
    (h : I st.1.2) (hr : renderRooms str files rs st = .ok st') : I st'.1.2 := by
  have hmodel : ∀ (f : VoxFile) (tex : TexMan → PyNum × PyNum × PyNum → TexMan × ℤ) (_ : ∀ tm, I tm → ∀ c, I (tex tm c).1) (pos : V) (q : Quarter)
      (l : List (Pt × ℕ)) (s s' : World ℤ × TexMan), I s.2 → l.foldlM (renderVoxel tex 0 0 f pos q) s = .ok s' → I s'.2 := by
    intro f tex H' pos q l
    induction l with
    | nil => intro s s' h hs; cases hs; exact h
    | cons v l ih =>
      intro s s' h hs
      rw [List.foldlM_cons] at hs
      cases hv : renderVoxel tex 0 0 f pos q s v with
      | error e => rw [hv] at hs; cases hs
      | ok s2 =>
        rw [hv] at hs
        refine ih s2 s' ?_ hs
        unfold renderVoxel at hv
        rw [dget_colours] at hv
        cases hp : f.palette[v.2]? with
        | none => rw [hp] at hv; cases hv
        | some p => rw [hp] at hv; cases hv; exact H' _ h _
  induction rs generalizing st with
  | nil => cases hr; exact h
  | cons r rs ih =>
    unfold renderRooms at hr
    rw [List.foldlM_cons] at hr
    cases hm : renderMagica str (files r.cls) r.cls r.pos r.ori st.1 st.2.2 with
    | error e => rw [hm] at hr; cases hr
    | ok x =>
      rw [hm] at hr
      refine ih (x.1, st.2.1 ++ x.2.1, x.2.2) ?_ hr
      simp only [renderMagica, renderModel] at hm
      cases hs : (loadVox (files r.cls)).world.foldlM (renderVoxel (modelTex str r.cls r.ori (initTextures str r.cls st.1.2).2) 0 0
          (files r.cls) r.pos r.ori) (st.1.1, (initTextures str r.cls st.1.2).1) with
      | error e => rw [hs] at hm; cases hm
      | ok s1 =>
        rw [hs] at hm
        have k := hmodel (files r.cls) _ (fun tm ht c => inv_tex str I H r.cls r.ori _ tm ht c) _ _ _ _ s1 (inv_init str I H r.cls _ h) hs
        cases he : (modelExtraDraw r.cls r.pos r.ori st.2.2).1 with
        | error e => simp only [bind, Except.bind, he] at hm; cases hm
        | ok l => simp only [bind, Except.bind, he] at hm; cases hm; exact k

theorem known_askColour (str : PyNum → String) (m : TexMan) (c : PyNum × PyNum × PyNum) (h : Known str [] m) : Known str [] (askColour str m c).1 := by
  simp only [askColour, TexMan.getColour]
  split
  · exact h
  · intro k t hk
    simp only [dget_dset] at hk
    split_ifs at hk with e
    · exact .inr ⟨_, _, _, e.symm, (Option.some.inj hk).symm⟩
    · exact h k t hk

/-- The textures of a finished run. -/
theorem run_textures (str : PyNum → String) (hue : V → ℤ × ℤ × ℤ) (files : Model → VoxFile) (a : RunArgs) (base : MapFile) (n : ℕ)
    (ok : RunOk str hue files a base n) (k : ℕ) (t t' : Tape) (res : RunResult)
    (hrun : a.main str hue files base k t t' = some (.ok res)) : TexInv res.world.2 ∧ Known str [] res.world.2 := by
  obtain ⟨m, hm, ha⟩ := ok.mirror
  obtain ⟨res', k', h1, h2, -⟩ := C86_run str ok.strOk hue files ok.readable ok.fit a m hm ha base t t'
  have : res' = res := by
    have e1 := main_mono str hue files a base k k' t t' _ hrun
    have e2 := h1 (k + k') (by omega)
    rw [e1] at e2
    cases e2; rfl
  subst this
  have hp := reachCells_rooms models wf_models a.size (some m) false res'.upm h2.clean.reach
  have hd := placed_disjoint files ok.fit a.size (some m) res'.upm h2.clean.clean hp
  obtain ⟨s, l, t2, g1, -, g2, -⟩ := rooms_fold str ok.strOk files ok.readable res'.upm.rooms hp hd
    ((World.new a.size, texStart str), [], t') (by simp [World.NodupKeys, World.new, dkeys]) (coloured_start str ok.strOk)
  have e : s = res'.world := by
    unfold RunArgs.main at hrun
    split at hrun
    · cases hrun
    · cases hrun
    · rename_i u hu
      split at hrun
      · cases hrun
      · rename_i w l' t3 hr
        split at hrun
        · cases hrun
        · cases hrun
          rw [g1] at hr
          cases hr
          rfl
  have z := inv_rooms str (Known str []) (fun tm c h => known_askColour str tm c h) files res'.upm.rooms _ _ (known_askColour str _ (.flt (1 / 10), .flt (1 / 10), .flt (1 / 10)) (known_init str [])) g1
  subst e
  exact ⟨g2.inv, z⟩

/-- The block at a position of the saved map has, on all sides, a texture number that the game finds in the config as the plain
image with a colour of three words, which are the texts of numbers that stand for the given bytes. -/
def GameShows (str : PyNum → String) (conf : List Char) (n : ℕ) (m : MapFile) (x y z : ℕ) (rgb : ℕ × ℕ × ℕ) : Prop :=
  ∃ (i : ℕ) (r g b : PyNum), leafAt n (.inner 0 (views m.world)) x y z = some (view (blockOf i)) ∧
    (readConf conf)[i]? = some { image := "hxr/textures/empty.png".toList, colour := [(str r).toList, (str g).toList, (str b).toList] } ∧
    (chan r, chan g, chan b) = ((rgb.1 : ℤ), (rgb.2.1 : ℤ), (rgb.2.2 : ℤ))

/-- C90, for a run of the room generator and the two files it saves: the game that reads both sees, at the place of every voxel of
every room that is inside the world, a block of the colour the room shows there. -/
theorem C90_run (str : PyNum → String) (hw : StrWord str) (hue : V → ℤ × ℤ × ℤ) (files : Model → VoxFile) (a : RunArgs) (base : MapFile) (n : ℕ)
    (ok : RunOk str hue files a base n) (k : ℕ) (t t' : Tape) (res : RunResult)
    (hrun : a.main str hue files base k t t' = some (.ok res)) (fl : List String) :
    ∃ m1 bs m2, res.saved = .ok m1 ∧ m1.write = .ok bs ∧ readMap bs = .ok m2 ∧
      ∀ r ∈ res.upm.rooms, ∀ v ∈ (files r.cls).voxels, ∃ c pal p, lastColour (files r.cls).voxels (voxPt v) = some c ∧
        (files r.cls).palette[c]? = some pal ∧ modelPoint 0 0 r.pos r.ori (voxPt v) = [p] ∧
        ∀ x y z : ℕ, x < 2 ^ n → y < 2 ^ n → z < 2 ^ n → key p = ((x : ℚ), (y : ℚ), (z : ℚ)) →
          GameShows str (confText str res.world.2 "Python" "test" (updateFlavours [] fl).1).toList n m2 x y z
            (shownBytes r.cls r.ori (pal.1, pal.2.1, pal.2.2.1)) := by
  obtain ⟨m1, bs, m2, o1, o2, o3, o4, -⟩ := C87_saved_partial str hue files a base n ok k t t' res hrun
  obtain ⟨c1, hk⟩ := run_textures str hue files a base n ok k t t' res hrun
  have hread := read_conf str hw res.world.2 "Python" "test" (by decide +kernel) (by decide +kernel) _ (flavour_lines fl)
    (known_plain str [] (by decide) _ c1 hk)
  refine ⟨m1, bs, m2, o1, o2, o3, fun r hr v hv => ?_⟩
  obtain ⟨c, pal, p, e1, e2, e3, e4⟩ := o4 r hr v hv
  refine ⟨c, pal, p, e1, e2, e3, fun x y z hx hy hz hp => ?_⟩
  obtain ⟨i, tex, f1, f2, f3, f4⟩ := e4 x y z hx hy hz hp
  obtain ⟨key, _, hkey⟩ := atlas_key _ c1 i tex f2
  have : ∃ r g b, tex = colourTex r g b := by
    rcases hk _ _ hkey with h' | ⟨r, g, b, _, rfl⟩
    · unfold themeTex at h'
      simp only [List.reverse_nil, List.find?_nil] at h'
      split_ifs at h'
      · rw [← Option.some.inj h'] at f3; cases f3
      · rw [← Option.some.inj h'] at f3; cases f3
    · exact ⟨r, g, b, rfl⟩
  obtain ⟨tr, tg, tb, rfl⟩ := this
  refine ⟨i, tr, tg, tb, f1, ?_, f4⟩
  rw [hread, List.getElem?_map, f2]
  have e5 : L (colourTex tr tg tb).basepath ++ L "/empty.png" = L "hxr/textures/empty.png" := by
    have : L (colourTex (.int 0) (.int 0) (.int 0)).basepath ++ L "/empty.png" = L "hxr/textures/empty.png" := by decide +kernel
    exact this
  simp only [Option.map_some, slotOf]
  rw [← L_eq, ← L_eq, ← L_eq, ← L_eq, ← e5]
  rfl

/-- The hypotheses hold for a run of 19 rooms. -/
example : RunOk someStr (fun _ => (0, 0, 0)) cornerFile farArgs (mapOfSize 256) 8 ∧ StrWord someStr ∧
    ∃ k res, farArgs.main someStr (fun _ => (0, 0, 0)) cornerFile (mapOfSize 256) k farTape farTape = some (.ok res) :=
  ⟨runOk_far, someStr_word, by
    obtain ⟨k, res, h, -⟩ := far_run someStr (fun _ => (0, 0, 0)) (mapOfSize 256) 8 farTape runOk_far
    exact ⟨k, res, h⟩⟩

end Verif.Props
