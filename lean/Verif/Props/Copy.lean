import Verif.CopyData
import Verif.Props.Save

/-! Copying the texture images (C96). -/

namespace Verif.Props
open Verif Verif.Spec

/-- A file of a texture that is there to be copied. -/
def Found (src : Source) (p : String × Option String) : Prop := ∃ f bs, p.2 = some f ∧ src p.1 f = some bs

/-- What a file holds after files were copied in order: the content of the last one of that name, or what it held before. -/
def lastCopy (src : Source) (l : List (String × Option String)) (d : Images) (f : String) : Option Bytes :=
  match l.reverse.find? fun p => p.2 = some f with
  | some p => src p.1 f
  | none => dget d f

/-- Why a file cannot be copied. -/
def whyNot (p : String × Option String) : CopyStop :=
  match p.2 with
  | none => .noName
  | some f => .notFound p.1 f

theorem copyFile_cases (src : Source) (p : String × Option String) (d : Images) :
    (∃ f bs, p.2 = some f ∧ src p.1 f = some bs ∧ copyFile src p.1 p.2 d = (dset d f bs, .ok ())) ∨
    (¬ Found src p ∧ copyFile src p.1 p.2 d = (d, .error (whyNot p))) := by
  obtain ⟨dir, o⟩ := p
  cases o with
  | none => exact .inr ⟨(by rintro ⟨f, bs, h, -⟩; cases h), rfl⟩
  | some f =>
    cases h : src dir f with
    | none => exact .inr ⟨(by rintro ⟨g, bs, h1, h2⟩; cases h1; rw [h] at h2; cases h2), by simp [copyFile, whyNot, h]⟩
    | some bs => exact .inl ⟨f, bs, rfl, h, by simp [copyFile, h]⟩

theorem copyFiles_spec (src : Source) (l : List (String × Option String)) (d : Images) :
    ∃ pre, pre <+: l ∧ (∀ p ∈ pre, Found src p) ∧ (∀ f, dget (copyFiles src l d).1 f = lastCopy src pre d f) ∧
      ((pre = l ∧ (copyFiles src l d).2 = .ok ()) ∨
        ∃ p, pre ++ [p] <+: l ∧ ¬ Found src p ∧ (copyFiles src l d).2 = .error (whyNot p)) := by
  induction l generalizing d with
  | nil => exact ⟨[], List.prefix_rfl, by simp, fun f => by simp [copyFiles, lastCopy], .inl ⟨rfl, rfl⟩⟩
  | cons p l ih =>
    rw [copyFiles]
    rcases copyFile_cases src p d with ⟨f, bs, h1, h2, h3⟩ | ⟨h1, h2⟩
    · rw [h3]
      obtain ⟨pre, g1, g2, g3, g4⟩ := ih (dset d f bs)
      refine ⟨p :: pre, by simpa using g1, ?_, fun f' => ?_, ?_⟩
      · intro q hq
        rcases List.mem_cons.1 hq with rfl | hq
        · exact ⟨f, bs, h1, h2⟩
        · exact g2 q hq
      · simp only
        rw [g3 f']
        unfold lastCopy
        rw [List.reverse_cons, List.find?_append]
        cases pre.reverse.find? fun p => p.2 = some f' with
        | some q => rfl
        | none =>
          simp only [Option.none_or, List.find?_cons, List.find?_nil, h1, Option.some.injEq, dget_dset]
          by_cases hf : f = f'
          · subst hf; simp [h2]
          · simp [hf]
      · rcases g4 with ⟨rfl, h⟩ | ⟨q, q1, q2, q3⟩
        · exact .inl ⟨rfl, h⟩
        · exact .inr ⟨q, by simpa using q1, q2, q3⟩
    · rw [h2]
      exact ⟨[], List.nil_prefix, by simp, fun f => by simp [lastCopy], .inr ⟨p, by simp, h1, rfl⟩⟩

/-- **C96, one call**: for any textures in use, any images at hand and any texture directory: if every file of every texture in use is there,
`copy_data` ends without exception, and then every file holds the content of the last texture naming it and no other file has
changed. Otherwise it raises for the first file that is missing, in the order of the textures, and exactly the files before it have
been copied. -/
theorem C96_copy (src : Source) (m : TexMan) (d : Images) :
    ((∀ p ∈ m.toCopy, Found src p) → (m.copyData src d).2 = .ok () ∧ ∀ f, dget (m.copyData src d).1 f = lastCopy src m.toCopy d f) ∧
    (∀ pre p, pre ++ [p] <+: m.toCopy → (∀ q ∈ pre, Found src q) → ¬ Found src p →
      (m.copyData src d).2 = .error (whyNot p) ∧ ∀ f, dget (m.copyData src d).1 f = lastCopy src pre d f) := by
  obtain ⟨pre, h1, h2, h3, h4⟩ := copyFiles_spec src m.toCopy d
  refine ⟨fun hall => ?_, fun pre' p hp hpre hno => ?_⟩
  · rcases h4 with ⟨rfl, h⟩ | ⟨p, hp, hno, -⟩
    · exact ⟨h, h3⟩
    · exact absurd (hall p (hp.subset (by simp))) hno
  · rcases h4 with ⟨rfl, h⟩ | ⟨q, hq, hno', h⟩
    · exact absurd (h2 p (hp.subset (by simp))) hno
    · have : pre = pre' ∧ q = p := by
        have hlen : pre.length = pre'.length := by
          rcases Nat.lt_trichotomy pre.length pre'.length with hlt | he | hgt
          · have hx : pre ++ [q] <+: pre' := List.prefix_of_prefix_length_le hq ((List.prefix_append _ _).trans hp) (by simp; omega)
            exact absurd (hpre q (hx.subset (by simp))) hno'
          · exact he
          · have hx : pre' ++ [p] <+: pre := List.prefix_of_prefix_length_le hp ((List.prefix_append _ _).trans hq) (by simp; omega)
            exact absurd (h2 p (hx.subset (by simp))) hno
        have := (List.prefix_of_prefix_length_le hq hp (by simp [hlen])).eq_of_length (by simp [hlen])
        have := List.append_inj this hlen
        exact ⟨this.1, by simpa using this.2⟩
      obtain ⟨rfl, rfl⟩ := this
      exact ⟨h, h3⟩

/-- Two textures share a file name; the last one wins, and a missing file stops the copying after the first two. -/
example : (copyFiles (fun dir f => if f = "c" then none else some (if dir = "x" then [1] else [2])) [("x", some "a"), ("y", some "a"), ("x", some "c"), ("x", some "d")] []) =
    ([("a", [2])], .error (.notFound "x" "c")) := by decide +kernel

/-! ### The themes -/

/-- A texture that was asked for is in the atlas. -/
theorem asked_atlas (str : PyNum → String) (theme : List (String × Tex)) (hc : ∀ p ∈ theme, ∀ r g b, p.1 ≠ colourName str r g b) (qs : List TexReq)
    (q : TexReq) (i : ℕ) (hq : (q, .ok i) ∈ (serve str (TexMan.init theme) qs).2) :
    ∃ t, (serve str (TexMan.init theme) qs).1.atlas[i]? = some (i, t) ∧
      match q with
      | .name s => themeTex theme s = some t ∨ ∃ r g b, s = colourName str r g b ∧ t = colourTex r g b
      | .colour _ _ _ => ∃ r g b, t = colourTex r g b := by
  obtain ⟨h, hb⟩ := texInit theme
  obtain ⟨c1, c2, c3, c4⟩ := serve_spec str (TexMan.init theme) h qs
  obtain ⟨t, h1, h2⟩ := c1.tex _ _ (c3 q i hq)
  refine ⟨t, h2, ?_⟩
  have := known_serve str theme _ (known_init str theme) qs _ _ h1
  cases q with
  | name s => exact this
  | colour r g b =>
    simp only [TexReq.key, themeTex_colour str theme hc, reduceCtorEq, false_or] at this
    obtain ⟨r', g', b', -, e⟩ := this
    exact ⟨r', g', b', e⟩

/-- Requests for known names and for colours are answered. -/
theorem answered (str : PyNum → String) (m : TexMan) (qs : List TexReq) (q : TexReq) (hn : ∀ s, q = .name s → (dget m.texref s).isSome) (hq : q ∈ qs) :
    ∃ i, (q, .ok i) ∈ (serve str m qs).2 := by
  induction qs generalizing m with
  | nil => cases hq
  | cons q' qs ih =>
    simp only [serve, List.mem_cons]
    rcases List.mem_cons.1 hq with rfl | hq
    · have : ∃ i, (askTex str m q).2 = .ok i := by
        cases h : (askTex str m q).2 with
        | ok i => exact ⟨i, rfl⟩
        | error e =>
          obtain ⟨-, -, s, rfl, h2⟩ := C58_failure_changes_nothing str m q e h
          have := hn s rfl
          rw [h2] at this
          cases this
      obtain ⟨i, hi⟩ := this
      exact ⟨i, .inl (by rw [hi])⟩
    · obtain ⟨i, hi⟩ := ih (askTex str m q').1 (fun s hs => texref_stays str m s (hn s hs) [q']) hq
      exact ⟨i, .inr hi⟩

theorem mem_toCopy (m : TexMan) (hi : TexInv m) (p : String × Option String) :
    p ∈ m.toCopy ↔ ∃ (i : ℕ) (t : Tex), m.atlas[i]? = some (i, t) ∧ p.1 = t.srcpath ∧ p.2 ∈ t.files := by
  constructor
  · intro hp
    obtain ⟨⟨i, t⟩, h1, h2⟩ := List.mem_flatMap.1 hp
    obtain ⟨o, h3, rfl⟩ := List.mem_map.1 h2
    obtain ⟨j, hj, he⟩ := List.getElem_of_mem h1
    have hij : i = j := by
      have := congrArg (fun l => l[j]?) hi.idx
      simp only [List.getElem?_map, List.getElem?_eq_getElem hj, he, Option.map_some, List.getElem?_range hj] at this
      exact Option.some.inj this
    subst hij
    exact ⟨i, t, by rw [List.getElem?_eq_getElem hj, he], rfl, h3⟩
  · rintro ⟨i, t, h1, h2, h3⟩
    exact List.mem_flatMap.2 ⟨_, List.mem_of_getElem? h1, List.mem_map.2 ⟨p.2, h3, by rw [← h2]⟩⟩

theorem colour_files (r g b : PyNum) : (colourTex r g b).files = [some "empty.png"] ∧ (colourTex r g b).srcpath = "data/hxr" := ⟨rfl, rfl⟩

/-- The files a theme copies. -/
theorem toCopy_iff (str : PyNum → String) (th : Theme) (hth : th ∈ themes) (qs : List TexReq)
    (hq : ∀ s, TexReq.name s ∈ qs → s ∈ Theme.allNames th) (p : String × Option String) :
    p ∈ (serve str (TexMan.init th.texs) qs).1.toCopy ↔
      ((∃ r g b, TexReq.colour r g b ∈ qs) ∧ p = ("data/hxr", some "empty.png")) ∨
      ∃ (s : String) (t : Tex), TexReq.name s ∈ qs ∧ themeTex th.texs s = some t ∧ p.1 = t.srcpath ∧ p.2 ∈ t.files := by
  have hc := themes_no_colour str th hth
  have c1 := (serve_spec str (TexMan.init th.texs) (texInit th.texs).1 qs).1
  rw [mem_toCopy _ c1]
  have hbase : ∀ th ∈ themes, ∀ s ∈ ["sky", "default"], ((themeTex th.texs s).map Tex.files).getD [] = [] := by decide +kernel
  have hlisted : ∀ th ∈ themes, ∀ s ∈ Theme.allNames th, s.toList.take 2 ≠ ['c', '_'] := by decide +kernel
  have hans := answered str (TexMan.init th.texs) qs
  constructor
  · rintro ⟨i, t, h1, h2, h3⟩
    rcases atlas_origin str th hth qs hq i t h1 with ⟨s, hs, ht⟩ | ⟨hcol, r, g, b, rfl⟩
    · have hb : s ∈ ["sky", "default"] → False := by
        intro hm
        have := hbase th hth s hm
        rw [ht] at this
        simp only [Option.map_some, Option.getD_some] at this
        rw [this] at h3
        cases h3
      rcases hs with rfl | rfl | hs
      · exact (hb (by simp)).elim
      · exact (hb (by simp)).elim
      · exact .inr ⟨s, t, hs, ht, h2, h3⟩
    · refine .inl ⟨hcol, Prod.ext h2 ?_⟩
      rw [(colour_files r g b).1] at h3
      simpa using h3
  · rintro (⟨⟨r, g, b, hcol⟩, rfl⟩ | ⟨s, t, hs, ht, h2, h3⟩)
    · obtain ⟨i, hi⟩ := hans _ (fun s e => by cases e) hcol
      obtain ⟨t, h1, r', g', b', rfl⟩ := asked_atlas str th.texs hc qs _ i hi
      exact ⟨i, _, h1, rfl, by rw [(colour_files r' g' b').1]; simp⟩
    · obtain ⟨i, hi⟩ := hans _ (fun s' e => by cases e; rw [texInit_texref, dget_themeTex, ht]; rfl) hs
      obtain ⟨t', h1, h4⟩ := asked_atlas str th.texs hc qs _ i hi
      simp only at h4
      rcases h4 with h4 | ⟨r, g, b, e, -⟩
      · rw [ht] at h4
        cases h4
        exact ⟨i, t, h1, h2, h3⟩
      · obtain ⟨l, hl⟩ := name_of_colour str r g b
        exact absurd (by rw [e, hl]; rfl) (hlisted th hth s (hq s hs))

/-- **C96, the images of the config**: for every theme and every history of requests for colours and for names the theme lists: when
`copy_data` has ended without exception, every image that the config names below `hxr/textures` is in the texture directory with the
content of that texture's own image, also where textures share file names. -/
theorem C96_images (str : PyNum → String) (th : Theme) (hth : th ∈ themes) (qs : List TexReq)
    (hq : ∀ s, TexReq.name s ∈ qs → s ∈ Theme.allNames th) (src : Source) (d : Images)
    (hok : ((serve str (TexMan.init th.texs) qs).1.copyData src d).2 = .ok ()) (i : ℕ) (t : Tex)
    (ht : (serve str (TexMan.init th.texs) qs).1.atlas[i]? = some (i, t)) (hb : t.basepath = "hxr/textures") :
    ∀ o ∈ Tex.images t, ∃ f bs, o = some f ∧ src t.srcpath f = some bs ∧
      dget ((serve str (TexMan.init th.texs) qs).1.copyData src d).1 f = some bs := by
  intro o ho
  have c1 := (serve_spec str (TexMan.init th.texs) (texInit th.texs).1 qs).1
  have hdata : ∀ th ∈ themes, ∀ s ∈ "sky" :: "default" :: Theme.allNames th, ((themeTex th.texs s).map fun t =>
      !decide (t.basepath = "hxr/textures") || t.copied || (Tex.images t).isEmpty) ≠ some false := by
    decide +kernel
  have hdirs : ∀ th ∈ themes, ∃ dir ∈ ["data/minecraft", "data/paper"], ∀ s ∈ Theme.allNames th, ((themeTex th.texs s).map fun t =>
      t.files.all fun o => (o == some "empty.png" && t.srcpath == "data/hxr") || (o != some "empty.png" && t.srcpath == dir)) ≠ some false := by
    decide +kernel
  have hmem : (t.srcpath, o) ∈ (serve str (TexMan.init th.texs) qs).1.toCopy := by
    rw [mem_toCopy _ c1]
    refine ⟨i, t, ht, rfl, ?_⟩
    rcases atlas_origin str th hth qs hq i t ht with ⟨s, hs, hth'⟩ | ⟨-, r, g, b, rfl⟩
    · have := hdata th hth s (by
        rcases hs with rfl | rfl | hs
        · simp
        · simp
        · exact List.mem_cons_of_mem _ (List.mem_cons_of_mem _ (hq s hs)))
      rw [hth'] at this
      simp only [Option.map_some, ne_eq, Option.some.injEq, hb, decide_true, Bool.not_true, Bool.false_or, Bool.not_eq_false, Bool.or_eq_true,
        List.isEmpty_iff] at this
      rcases this with h | h
      · exact (C75_files t h o).2 ho
      · rw [h] at ho; cases ho
    · exact (C75_files _ rfl o).2 ho
  obtain ⟨pre, h1, h2, h3, h4⟩ := copyFiles_spec src (serve str (TexMan.init th.texs) qs).1.toCopy d
  have hpre : pre = (serve str (TexMan.init th.texs) qs).1.toCopy := by
    rcases h4 with ⟨h, -⟩ | ⟨p, -, -, h⟩
    · exact h
    · unfold TexMan.copyData at hok; rw [h] at hok; cases hok
  subst hpre
  obtain ⟨f, bs, e1, e2⟩ := h2 _ hmem
  simp only at e1 e2
  subst e1
  refine ⟨f, bs, rfl, e2, ?_⟩
  unfold TexMan.copyData
  rw [h3 f]
  unfold lastCopy
  cases hf : (serve str (TexMan.init th.texs) qs).1.toCopy.reverse.find? fun p => p.2 = some f with
  | none =>
    rw [List.find?_eq_none] at hf
    have := hf _ (List.mem_reverse.2 hmem)
    simp at this
  | some p =>
    have hp1 := List.mem_reverse.1 (List.mem_of_find?_eq_some hf)
    have hp2 : p.2 = some f := by simpa using List.find?_some hf
    obtain ⟨dir, -, hdir⟩ := hdirs th hth
    have key : ∀ q ∈ (serve str (TexMan.init th.texs) qs).1.toCopy, (q.2 = some "empty.png" → q.1 = "data/hxr") ∧ (q.2 ≠ some "empty.png" → q.1 = dir) := by
      intro q hq'
      rcases (toCopy_iff str th hth qs hq q).1 hq' with ⟨-, rfl⟩ | ⟨s, t', hs, ht', g1, g2⟩
      · exact ⟨fun _ => rfl, fun h => absurd rfl h⟩
      · have := hdir s (hq s hs)
        rw [ht'] at this
        simp only [Option.map_some, ne_eq, Option.some.injEq, Bool.not_eq_false, List.all_eq_true] at this
        have := this q.2 g2
        simp only [Bool.or_eq_true, Bool.and_eq_true, beq_iff_eq, bne_iff_ne, ne_eq] at this
        rw [g1]
        tauto
    have k1 := key p hp1
    have k2 := key _ hmem
    have : p.1 = t.srcpath := by
      by_cases he : some f = some "empty.png"
      · rw [k1.1 (hp2.trans he), ← k2.1 he]
      · rw [k1.2 (by rw [hp2]; exact he), ← k2.2 he]
    simp only
    rw [this]
    exact e2

/-- Images are at hand exactly where the repository has them. -/
def Shipped (src : Source) : Prop := ∀ dir f, (src dir f).isSome ↔ inRepo dir f = true

/-- **C96, full statement** (false, see below): with the images of the repository, `copy_data` never raises. -/
def C96_shipped : Prop := ∀ (str : PyNum → String), ∀ th ∈ themes, ∀ qs : List TexReq, (∀ s, TexReq.name s ∈ qs → s ∈ Theme.allNames th) →
  ∀ src, Shipped src → ∀ d, ((serve str (TexMan.init th.texs) qs).1.copyData src d).2 = .ok ()

theorem copy_ok_iff (src : Source) (m : TexMan) (d : Images) : (m.copyData src d).2 = .ok () ↔ ∀ p ∈ m.toCopy, Found src p := by
  refine ⟨fun h => ?_, fun h => ((C96_copy src m d).1 h).1⟩
  obtain ⟨pre, h1, h2, h3, h4⟩ := copyFiles_spec src m.toCopy d
  rcases h4 with ⟨rfl, -⟩ | ⟨p, -, -, h'⟩
  · exact h2
  · unfold TexMan.copyData at h; rw [h'] at h; cases h

theorem shipped_found (src : Source) (hs : Shipped src) (p : String × Option String) :
    Found src p ↔ (match p.2 with | some f => inRepo p.1 f | none => false) = true := by
  obtain ⟨dir, o⟩ := p
  cases o with
  | none => simp [Found]
  | some f =>
    simp only [Found, Option.some.injEq]
    rw [← hs dir f, Option.isSome_iff_exists]
    constructor
    · rintro ⟨f', bs, rfl, h⟩; exact ⟨bs, h⟩
    · rintro ⟨bs, h⟩; exact ⟨f, bs, rfl, h⟩

/-- **C96, what holds with the images of the repository**: for every history of requests for colours and for names the theme lists,
`copy_data` ends without exception exactly if: for the Minecraft theme and the default theme, no colour was asked for; for the paper theme, no
colour and only its textures 1, 2 and 7; for the theme of primary colours, nothing at all. Missing from the full statement: everything else
raises, because the image of the colours and most paper images are not in the repository. -/
theorem C96_shipped_partial (str : PyNum → String) (src : Source) (hs : Shipped src) (d : Images) (qs : List TexReq) :
    (∀ th ∈ [minecraftTheme, dullTheme], (∀ s, TexReq.name s ∈ qs → s ∈ Theme.allNames th) →
      (((serve str (TexMan.init th.texs) qs).1.copyData src d).2 = .ok () ↔ ∀ r g b, TexReq.colour r g b ∉ qs)) ∧
    ((∀ s, TexReq.name s ∈ qs → s ∈ Theme.allNames paperTheme) →
      (((serve str (TexMan.init paperTheme.texs) qs).1.copyData src d).2 = .ok () ↔
        (∀ r g b, TexReq.colour r g b ∉ qs) ∧ ∀ s, TexReq.name s ∈ qs → s ∈ ["paper1", "paper2", "paper7"])) ∧
    ((∀ s, TexReq.name s ∈ qs → s ∈ Theme.allNames primaryTheme) →
      (((serve str (TexMan.init primaryTheme.texs) qs).1.copyData src d).2 = .ok () ↔ qs = [])) := by
  have hin : ∀ s : Tex, (∀ o ∈ s.files, (match o with | some f => inRepo s.srcpath f | none => false) = true) ↔
      (s.files.all fun o => match o with | some f => inRepo s.srcpath f | none => false) = true := by
    intro s; rw [List.all_eq_true]
  have main : ∀ th ∈ themes, (∀ s, TexReq.name s ∈ qs → s ∈ Theme.allNames th) →
      (((serve str (TexMan.init th.texs) qs).1.copyData src d).2 = .ok () ↔ (∀ r g b, TexReq.colour r g b ∉ qs) ∧
        ∀ s t, TexReq.name s ∈ qs → themeTex th.texs s = some t →
          (t.files.all fun o => match o with | some f => inRepo t.srcpath f | none => false) = true) := by
    intro th hth hq
    rw [copy_ok_iff]
    have hempty : inRepo "data/hxr" "empty.png" = false := by decide +kernel
    constructor
    · intro h
      refine ⟨fun r g b hc => ?_, fun s t h1 h2 => (hin t).1 fun o ho => ?_⟩
      · have := h _ ((toCopy_iff str th hth qs hq _).2 (.inl ⟨⟨r, g, b, hc⟩, rfl⟩))
        rw [shipped_found src hs] at this
        simp only [hempty] at this
        cases this
      · have := h (t.srcpath, o) ((toCopy_iff str th hth qs hq _).2 (.inr ⟨s, t, h1, h2, rfl, ho⟩))
        rw [shipped_found src hs] at this
        exact this
    · rintro ⟨h1, h2⟩ p hp
      rw [shipped_found src hs]
      rcases (toCopy_iff str th hth qs hq p).1 hp with ⟨⟨r, g, b, hc⟩, -⟩ | ⟨s, t, g1, g2, g3, g4⟩
      · exact absurd hc (h1 r g b)
      · rw [g3]
        exact (hin t).2 (h2 s t g1 g2) p.2 g4
  have hknown : ∀ th ∈ [paperTheme, primaryTheme], ∀ s ∈ Theme.allNames th, (themeTex th.texs s).isSome := by decide +kernel
  refine ⟨fun th hth hq => ?_, fun hq => ?_, fun hq => ?_⟩
  · rw [main th (by simp only [themes, List.mem_cons, List.not_mem_nil, or_false] at hth ⊢; tauto) hq]
    refine and_iff_left fun s t h1 h2 => ?_
    have k : ∀ th ∈ [minecraftTheme, dullTheme], ∀ s ∈ Theme.allNames th,
        ((themeTex th.texs s).map fun t => t.files.all fun o => match o with | some f => inRepo t.srcpath f | none => false) ≠ some false := by
      decide +kernel
    have := k th hth s (hq s h1)
    rw [h2] at this
    simpa using this
  · rw [main paperTheme (by simp [themes]) hq]
    have k : ∀ s ∈ Theme.allNames paperTheme,
        ((themeTex paperTheme.texs s).map fun t => t.files.all fun o => match o with | some f => inRepo t.srcpath f | none => false) =
          some (decide (s ∈ ["paper1", "paper2", "paper7"])) := by decide +kernel
    refine and_congr_right fun _ => ⟨fun h s h1 => ?_, fun h s t h1 h2 => ?_⟩
    · obtain ⟨t, ht⟩ := Option.isSome_iff_exists.1 (hknown paperTheme (by simp) s (hq s h1))
      have := k s (hq s h1)
      rw [ht, Option.map_some, h s t h1 ht] at this
      simpa using this.symm
    · have := k s (hq s h1)
      rw [h2, Option.map_some, decide_eq_true (h s h1)] at this
      simpa using this
  · rw [main primaryTheme (by simp [themes]) hq]
    have k : ∀ s ∈ Theme.allNames primaryTheme,
        ((themeTex primaryTheme.texs s).map fun t => t.files.all fun o => match o with | some f => inRepo t.srcpath f | none => false) =
          some false := by decide +kernel
    constructor
    · rintro ⟨h1, h2⟩
      cases qs with
      | nil => rfl
      | cons q qs =>
        cases q with
        | colour r g b => exact absurd List.mem_cons_self (h1 r g b)
        | name s =>
          have hm := hq s List.mem_cons_self
          obtain ⟨t, ht⟩ := Option.isSome_iff_exists.1 (hknown primaryTheme (by simp) s hm)
          have := k s hm
          rw [ht, Option.map_some, h2 s t List.mem_cons_self ht] at this
          cases this
    · rintro rfl
      simp

/-! ### A run of the room generator -/

/-- The textures of a run are colours. -/
theorem colours_only (str : PyNum → String) (m : TexMan) (hi : TexInv m) (hk : Known str [] m) : ∀ p ∈ m.toCopy, p = ("data/hxr", some "empty.png") := by
  intro p hp
  obtain ⟨i, t, h1, h2, h3⟩ := (mem_toCopy m hi p).1 hp
  obtain ⟨k, -, hk2⟩ := atlas_key m hi i t h1
  rcases hk k t hk2 with h | ⟨r, g, b, -, rfl⟩
  · unfold themeTex at h
    simp only [List.reverse_nil, List.find?_nil] at h
    split_ifs at h
    · rw [← Option.some.inj h] at h3; cases h3
    · rw [← Option.some.inj h] at h3; cases h3
  · rw [(colour_files r g b).1] at h3
    exact Prod.ext h2 (by simpa using h3)

theorem run_has_colour (str : PyNum → String) (hue : V → ℤ × ℤ × ℤ) (files : Model → VoxFile) (a : RunArgs) (base : MapFile) (n : ℕ)
    (ok : RunOk str hue files a base n) (k : ℕ) (t t' : Tape) (res : RunResult)
    (hrun : a.main str hue files base k t t' = some (.ok res)) (hv : ∃ r ∈ res.upm.rooms, (files r.cls).voxels ≠ []) :
    ("data/hxr", some "empty.png") ∈ res.world.2.toCopy := by
  obtain ⟨c1, hk⟩ := run_textures str hue files a base n ok k t t' res hrun
  obtain ⟨m, hm, ha⟩ := ok.mirror
  obtain ⟨res', k', h1, -, -, h2, -⟩ := C86_run str ok.strOk hue files ok.readable ok.fit a m hm ha base t t'
  have : res' = res := by
    have e1 := main_mono str hue files a base k k' t t' _ hrun
    have e2 := h1 (k + k') (by omega)
    rw [e1] at e2
    cases e2; rfl
  subst this
  obtain ⟨r, hr, hne⟩ := hv
  obtain ⟨v, hv⟩ := List.exists_mem_of_ne_nil _ hne
  obtain ⟨c, pal, p, -, -, -, i, tex, -, g2, g3, -⟩ := h2 r hr v hv
  obtain ⟨key, -, hkey⟩ := atlas_key _ c1 i tex g2
  rcases hk _ _ hkey with h' | ⟨r, g, b, _, rfl⟩
  · unfold themeTex at h'
    simp only [List.reverse_nil, List.find?_nil] at h'
    split_ifs at h'
    · rw [← Option.some.inj h'] at g3; cases g3
    · rw [← Option.some.inj h'] at g3; cases g3
  · exact (mem_toCopy _ c1 _).2 ⟨i, _, g2, rfl, by rw [(colour_files r g b).1]; simp⟩

theorem lastCopy_same (src : Source) (l : List (String × Option String)) (x f : String) (hl : ∀ p ∈ l, p = (x, some f)) (d : Images) (f' : String) :
    lastCopy src l d f' = if f' = f ∧ l ≠ [] then src x f else dget d f' := by
  unfold lastCopy
  cases hf : l.reverse.find? fun p => p.2 = some f' with
  | none =>
    rw [List.find?_eq_none] at hf
    split_ifs with h
    · obtain ⟨rfl, hne⟩ := h
      obtain ⟨p, hp⟩ := List.exists_mem_of_ne_nil _ hne
      have := hf p (List.mem_reverse.2 hp)
      rw [hl p hp] at this
      simp at this
    · rfl
  | some p =>
    have hp1 := List.mem_reverse.1 (List.mem_of_find?_eq_some hf)
    have hp2 : p.2 = some f' := by simpa using List.find?_some hf
    have e := hl p hp1
    subst e
    simp only [Option.some.injEq] at hp2
    subst hp2
    rw [if_pos ⟨rfl, List.ne_nil_of_mem hp1⟩]

/-- The disk while a run that cannot copy its images saves. -/
theorem stopped_disk (str : PyNum → String) (m : TexMan) (author mapName : String) (path : List Char) (hp : mpz <:+: path) (disk : Disk) (k : ℕ) :
    let ops := FileOp.opens path :: .opens (confName path) :: (confWrites str m author mapName []).flatMap (fun s => puts (confName path) (strEncode s))
    (∀ q, q ≠ path → q ≠ confName path → dget (diskAfter disk ops k) q = dget disk q) ∧
    (1 ≤ k → dget (diskAfter disk ops k) path = some []) ∧
    (ops.length ≤ k → dget (diskAfter disk ops k) (confName path) = some (strEncode (m.emitConf str author mapName))) := by
  intro ops
  have hops : saveSteps path (confWrites str m author mapName []) [] = ops ++ [.opens path] := by simp [saveSteps, puts, ops]
  have hk : ∀ k, diskAfter disk ops k = diskAfter disk (saveSteps path (confWrites str m author mapName []) []) (min k ops.length) := by
    intro k
    unfold diskAfter
    rw [hops, List.take_append_of_le_length (by omega)]
    congr 1
    rcases Nat.le_total k ops.length with h | h
    · rw [min_eq_left h]
    · rw [min_eq_right h, List.take_length, List.take_of_length_le h]
  obtain ⟨h1, h2⟩ := stages disk path hp (confWrites str m author mapName []) [] (min k ops.length)
  rw [hk k]
  refine ⟨h1, fun hk1 => ?_, fun hk1 => ?_⟩
  · have : 1 ≤ ops.length := by simp [ops]
    rcases h2 with ⟨h, -⟩ | ⟨h, -⟩ | ⟨c, hc, h, -⟩
    · omega
    · exact h
    · rw [h, List.prefix_nil.1 hc]
  · have hc := (C91_complete disk path hp (confWrites str m author mapName []) []).2
    have hne := (confName_ne_iff path).2 hp
    have e : diskAfter disk (saveSteps path (confWrites str m author mapName []) []) (saveSteps path (confWrites str m author mapName []) []).length =
        FileOp.run (diskAfter disk (saveSteps path (confWrites str m author mapName []) []) ops.length) (.opens path) := by
      unfold diskAfter
      rw [List.take_length, hops, List.take_left, List.foldl_append]
      rfl
    rw [e] at hc
    simp only [FileOp.run, dget_dset] at hc
    rw [if_neg hne.symm] at hc
    rw [min_eq_right hk1, hc, ← strEncode_join, C91_config_text]
    simp [String.join]

/-- **C96, a run**: a run of the room generator in which some room has a voxel. With the images of the repository it fails while copying
the image of the colours: the texture directory stays as it was, the config is written without the lines of world flavours, and the map file
is left empty, at every moment from the start of the run. If the image were there, it is the only file that is copied and the run saves as in C91. -/
theorem C96_run (str : PyNum → String) (hue : V → ℤ × ℤ × ℤ) (files : Model → VoxFile) (a : RunArgs) (base : MapFile) (n : ℕ)
    (ok : RunOk str hue files a base n) (k : ℕ) (t t' : Tape) (res : RunResult)
    (hrun : a.main str hue files base k t t' = some (.ok res)) (hv : ∃ r ∈ res.upm.rooms, (files r.cls).voxels ≠ []) (src : Source)
    (author mapName : String) (extra : List String) (path : List Char) (hp : mpz <:+: path) (map : Bytes) (d : Images) :
    let s := saveCopying src str res.world.2 author mapName extra path map d
    (Shipped src → s.2.2 = .error (.notFound "data/hxr" "empty.png") ∧ s.2.1 = d ∧ ∀ (disk : Disk) (j : ℕ),
      (∀ q, q ≠ path → q ≠ confName path → dget (diskAfter disk s.1 j) q = dget disk q) ∧
      (1 ≤ j → dget (diskAfter disk s.1 j) path = some []) ∧
      (s.1.length ≤ j → dget (diskAfter disk s.1 j) (confName path) = some (strEncode (res.world.2.emitConf str author mapName)))) ∧
    (∀ c, src "data/hxr" "empty.png" = some c → s.2.2 = .ok () ∧ s.1 = saveSteps path (confWrites str res.world.2 author mapName extra) map ∧
      ∀ f, dget s.2.1 f = if f = "empty.png" then some c else dget d f) := by
  obtain ⟨c1, hk⟩ := run_textures str hue files a base n ok k t t' res hrun
  have hmem := run_has_colour str hue files a base n ok k t t' res hrun hv
  have hall := colours_only str res.world.2 c1 hk
  intro s
  refine ⟨fun hs => ?_, fun c hc => ?_⟩
  · have hno : src "data/hxr" "empty.png" = none := by
      have h1 := (hs "data/hxr" "empty.png").not.2 (by decide +kernel)
      simpa using h1
    have hcopy : res.world.2.copyData src d = (d, .error (.notFound "data/hxr" "empty.png")) := by
      unfold TexMan.copyData
      revert hmem hall
      cases res.world.2.toCopy with
      | nil => intro h; cases h
      | cons p l =>
        intro _ hall
        rw [hall p List.mem_cons_self, copyFiles]
        simp [copyFile, hno]
    simp only [s, saveCopying, hcopy]
    exact ⟨trivial, trivial, fun disk j => stopped_disk str res.world.2 author mapName path hp disk j⟩
  · obtain ⟨h1, h2⟩ := (C96_copy src res.world.2 d).1 (fun p hp' => by rw [hall p hp']; exact ⟨_, c, rfl, hc⟩)
    have hs : s = (saveSteps path (confWrites str res.world.2 author mapName extra) map, (res.world.2.copyData src d).1, .ok ()) := by
      simp only [s, saveCopying]
      rcases hx : res.world.2.copyData src d with ⟨d', e | u⟩
      · rw [hx] at h1; cases h1
      · rfl
    rw [hs]
    refine ⟨rfl, rfl, fun f => ?_⟩
    rw [h2 f, lastCopy_same src _ "data/hxr" "empty.png" hall, hc]
    simp [List.ne_nil_of_mem hmem]

/-- Images that are at hand exactly where the repository has them. -/
theorem shipped_inRepo : Shipped fun dir f => if inRepo dir f then some [0] else none := by
  intro dir f
  cases h : inRepo dir f <;> simp [h]

/-- C96 is false: one colour is enough. -/
theorem C96_shipped_false : ¬ C96_shipped := by
  intro h
  have := h someStr minecraftTheme (by simp [themes]) [.colour (.int 1) (.int 0) (.int 0)] (by simp) _ shipped_inRepo []
  rw [(C96_shipped_partial someStr _ shipped_inRepo [] _).1 minecraftTheme (by simp) (by simp)] at this
  exact this _ _ _ List.mem_cons_self

/-- A history of the paper theme that can be copied and one that cannot. -/
example : "paper7" ∈ Theme.allNames paperTheme ∧ "paper3" ∈ Theme.allNames paperTheme ∧ Theme.allNames minecraftTheme ≠ [] := by decide +kernel

/-- Copying for the Minecraft theme puts the four images of a texture into the directory. -/
example : (((serve someStr (TexMan.init minecraftTheme.texs) [.name "gold"]).1.copyData (fun dir f => if inRepo dir f then some [0] else none) []).1.map Prod.fst) =
    ["gold.png", "gold_n.png", "gold_s.png", "gold_z.png"] := by decide +kernel

/-- The hypotheses hold for a run of 19 rooms. -/
example : RunOk someStr (fun _ => (0, 0, 0)) cornerFile farArgs (mapOfSize 256) 8 ∧
    ∃ k res, farArgs.main someStr (fun _ => (0, 0, 0)) cornerFile (mapOfSize 256) k farTape farTape = some (.ok res) ∧
      ∃ r ∈ res.upm.rooms, (cornerFile r.cls).voxels ≠ [] :=
  ⟨runOk_far, by
    obtain ⟨k, res, h, r, hr, -⟩ := far_run someStr (fun _ => (0, 0, 0)) (mapOfSize 256) 8 farTape runOk_far
    exact ⟨k, res, h, r, hr, by simp [cornerFile, (offsets_table r.cls (mem_allModels _)).1]⟩⟩

end Verif.Props
