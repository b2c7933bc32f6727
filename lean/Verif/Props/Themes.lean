import Verif.Props.Textures
import Mathlib.Data.List.Perm.Subperm

/-!
Themes and output files: C61 (categories), C73 (rainbow), C74 (map and config files), C75 (images).
-/

namespace Verif.Props

open Verif

/-! ### C61 -/

/-- The names a theme lists for a category. -/
def Theme.names (th : Theme) : String → Option (List String)
  | "generic" => some th.generic
  | "column" => some th.column
  | "floor" => some th.floor
  | "wall" => some th.wall
  | "accent" => some th.accent
  | _ => none

/-- C61 as stated: for every theme, history, category and random outcome `get_c` returns an index of the atlas. -/
def C61_categories : Prop := ∀ th ∈ themes, ∀ (str : PyNum → String) (qs : List TexReq) (cat : String) (t : Tape),
  ∃ i t', ((serve str (TexMan.init th.texs) qs).1.getC th cat t).2 = .ok (.idx i, t') ∧
    i < ((serve str (TexMan.init th.texs) qs).1.getC th cat t).1.atlas.length

theorem getC_names (th : Theme) (m : TexMan) (cat : String) (t : Tape) :
    (∀ l, Theme.names th cat = some l → m.getC th cat t = m.getRandom l t) ∧
    (Theme.names th cat = none → m.getC th cat t = match drawChoice th.generic t with
      | .error e => (m, .error e)
      | .ok (s, t) => (m, .ok (.name s, t))) := by
  unfold TexMan.getC Theme.names
  split <;> simp_all
  cases drawChoice th.generic t <;> rfl

theorem known_init (str : PyNum → String) (theme : List (String × Tex)) : Known str theme (TexMan.init theme) := by
  intro k t hk
  rw [texInit_texref, dget_themeTex] at hk
  exact .inl hk

/-- Names of the theme are known in every state. -/
theorem texref_stays (str : PyNum → String) (m : TexMan) (s : String) (h : (dget m.texref s).isSome) (qs : List TexReq) :
    (dget (serve str m qs).1.texref s).isSome := by
  induction qs generalizing m with
  | nil => exact h
  | cons q qs ih =>
    refine ih _ ?_
    cases q with
    | name s' =>
      simp only [askTex, TexMan.get]
      cases dget m.backref s' with
      | some i => exact h
      | none => cases ht : dget m.texref s' <;> exact h
    | colour r g b =>
      simp only [askTex, TexMan.getColour]
      cases dget m.backref (colourName str r g b) with
      | some i => exact h
      | none =>
        simp only [dget_dset]
        split_ifs
        · rfl
        · exact h

theorem drawChoice_ok {α : Type} (l : List α) (hl : l ≠ []) (t : Tape) : ∃ a ∈ l, drawChoice l t = .ok (a, t.next) := by
  unfold drawChoice
  have : t 0 % l.length < l.length := Nat.mod_lt _ (List.length_pos_iff.2 hl)
  rw [List.getElem?_eq_getElem this]
  exact ⟨_, List.getElem_mem this, rfl⟩

/-- C61, what holds: in every history, a category all of whose names have a texture class yields an index of the atlas, namely
the index of a texture that the theme lists for the category. -/
theorem C61_categories_partial (th : Theme) (cat : String) (l : List String) (hl : Theme.names th cat = some l) (hne : l ≠ [])
    (hk : ∀ s ∈ l, (themeTex th.texs s).isSome) (str : PyNum → String) (qs : List TexReq) (t : Tape) :
    ∃ i, ((serve str (TexMan.init th.texs) qs).1.getC th cat t).2 = .ok (.idx i, t.next) ∧
      i < ((serve str (TexMan.init th.texs) qs).1.getC th cat t).1.atlas.length ∧
      ∃ s ∈ l, ((serve str (TexMan.init th.texs) qs).1.getC th cat t).1.get s =
        (((serve str (TexMan.init th.texs) qs).1.getC th cat t).1, .ok i) := by
  set m := (serve str (TexMan.init th.texs) qs).1 with hm
  rw [(getC_names th m cat t).1 l hl]
  obtain ⟨s, hs, hd⟩ := drawChoice_ok l hne t
  have hr : (dget m.texref s).isSome := texref_stays str _ s (by rw [texInit_texref, dget_themeTex]; exact hk s hs) qs
  have hinv : TexInv m := (serve_spec str _ (texInit th.texs).1 qs).1
  have ha := ask_spec str m hinv (.name s)
  simp only [askTex, TexReq.key] at ha
  unfold TexMan.getRandom
  rw [hd]
  simp only
  have hok : ∃ i, (m.get s).2 = .ok i := by
    unfold TexMan.get
    cases dget m.backref s with
    | some i => exact ⟨i, rfl⟩
    | none =>
      obtain ⟨x, hx⟩ := Option.isSome_iff_exists.1 hr
      rw [hx]
      exact ⟨_, rfl⟩
  obtain ⟨i, hi⟩ := hok
  have hb := ha.2.2.1 i hi
  have hlt : i < (m.get s).1.atlas.length := by
    obtain ⟨x, _, h2⟩ := ha.1.tex s i hb
    exact (List.getElem?_eq_some_iff.1 h2).1
  have e : m.get s = ((m.get s).1, .ok i) := by rw [← hi]
  rw [e]
  refine ⟨i, rfl, hlt, s, hs, ?_⟩
  have again : ∀ m' : TexMan, dget m'.backref s = some i → m'.get s = (m', .ok i) := by
    intro m' h'
    unfold TexMan.get
    rw [h']
  exact again _ hb

/-- C61: the categories that work: all five of three themes, and three of the default theme. -/
theorem C61_working (str : PyNum → String) (qs : List TexReq) (t : Tape) :
    ∀ p ∈ [(minecraftTheme, ["generic", "column", "floor", "wall", "accent"]), (paperTheme, ["generic", "column", "floor", "wall", "accent"]),
      (primaryTheme, ["generic", "column", "floor", "wall", "accent"]), (dullTheme, ["column", "wall", "accent"])], ∀ cat ∈ p.2,
    ∃ i, ((serve str (TexMan.init p.1.texs) qs).1.getC p.1 cat t).2 = .ok (.idx i, t.next) ∧
      i < ((serve str (TexMan.init p.1.texs) qs).1.getC p.1 cat t).1.atlas.length := by
  have h : ∀ p ∈ [(minecraftTheme, ["generic", "column", "floor", "wall", "accent"]), (paperTheme, ["generic", "column", "floor", "wall", "accent"]),
      (primaryTheme, ["generic", "column", "floor", "wall", "accent"]), (dullTheme, ["column", "wall", "accent"])], ∀ cat ∈ p.2,
      ((Theme.names p.1 cat).map fun l => !l.isEmpty && l.all fun s => (themeTex p.1.texs s).isSome) = some true := by
    decide +kernel
  intro p hp cat hc
  obtain ⟨l, hl, h1⟩ := Option.map_eq_some_iff.1 (h p hp cat hc)
  simp only [Bool.and_eq_true, Bool.not_eq_true', List.isEmpty_eq_false_iff, List.all_eq_true] at h1
  obtain ⟨i, h2, h3, _⟩ := C61_categories_partial p.1 cat l hl h1.1 h1.2 str qs t
  exact ⟨i, h2, h3⟩

/-- A name that is neither in the theme nor the name of a colour can not be requested, whatever happened before. -/
theorem get_unknown (str : PyNum → String) (theme : List (String × Tex)) (qs : List TexReq) (s : String)
    (h1 : themeTex theme s = none) (h2 : ∀ r g b, s ≠ colourName str r g b) :
    ((serve str (TexMan.init theme) qs).1.get s).2 = .error .key := by
  have hk := known_serve str theme _ (known_init str theme) qs
  have hinv : TexInv (serve str (TexMan.init theme) qs).1 := (serve_spec str _ (texInit theme).1 qs).1
  have hr : dget (serve str (TexMan.init theme) qs).1.texref s = none := by
    cases h : dget (serve str (TexMan.init theme) qs).1.texref s with
    | none => rfl
    | some t =>
      rcases hk s t h with h' | ⟨r, g, b, e, _⟩
      · rw [h1] at h'; cases h'
      · exact absurd e (h2 r g b)
  unfold TexMan.get
  cases hb : dget (serve str (TexMan.init theme) qs).1.backref s with
  | some i =>
    obtain ⟨t, ht, _⟩ := hinv.tex s i hb
    rw [hr] at ht; cases ht
  | none => rw [hr]

theorem not_colour (str : PyNum → String) (s : String) (h : s.toList.head? ≠ some 'c') (r g b : PyNum) : s ≠ colourName str r g b := by
  rintro rfl
  obtain ⟨l, hl⟩ := name_of_colour str r g b
  rw [hl] at h
  exact h rfl

/-- C61: with the default theme, `generic` raises KeyError in one of five outcomes and `floor` in one of thirty, in every
history: they name `tex8` and `tex115`, which have no class. -/
theorem C61_default_theme_raises (str : PyNum → String) (qs : List TexReq) (t : Tape) :
    (t 0 % 5 = 4 → ((serve str (TexMan.init dullTheme.texs) qs).1.getC dullTheme "generic" t).2 = .error .key) ∧
    (t 0 % 30 = 28 → ((serve str (TexMan.init dullTheme.texs) qs).1.getC dullTheme "floor" t).2 = .error .key) := by
  constructor
  · intro h
    rw [(getC_names dullTheme _ "generic" t).1 dullTheme.generic rfl]
    have hd : drawChoice dullTheme.generic t = .ok ("tex8", t.next) := by
      unfold drawChoice
      have e : dullTheme.generic.length = 5 := by decide +kernel
      have e' : dullTheme.generic[4]? = some "tex8" := by decide +kernel
      rw [e, h, e']
    unfold TexMan.getRandom
    rw [hd]
    simp only
    have := get_unknown str dullTheme.texs qs "tex8" (by decide +kernel) (not_colour str _ (by decide))
    cases hg : (serve str (TexMan.init dullTheme.texs) qs).1.get "tex8" with
    | mk a b => rw [hg] at this; simp only at this; rw [this]
  · intro h
    rw [(getC_names dullTheme _ "floor" t).1 dullTheme.floor rfl]
    have hd : drawChoice dullTheme.floor t = .ok ("tex115", t.next) := by
      unfold drawChoice
      have e : dullTheme.floor.length = 30 := by decide +kernel
      have e' : dullTheme.floor[28]? = some "tex115" := by decide +kernel
      rw [e, h, e']
    unfold TexMan.getRandom
    rw [hd]
    simp only
    have := get_unknown str dullTheme.texs qs "tex115" (by decide +kernel) (not_colour str _ (by decide))
    cases hg : (serve str (TexMan.init dullTheme.texs) qs).1.get "tex115" with
    | mk a b => rw [hg] at this; simp only at this; rw [this]

/-- C61: any other category gives the name of a texture instead of an index, for every theme, history and outcome. -/
theorem C61_other_category (th : Theme) (hg : th.generic ≠ []) (m : TexMan) (cat : String) (hc : Theme.names th cat = none) (t : Tape) :
    ∃ s ∈ th.generic, m.getC th cat t = (m, .ok (.name s, t.next)) := by
  rw [(getC_names th m cat t).2 hc]
  obtain ⟨s, hs, hd⟩ := drawChoice_ok th.generic hg t
  exact ⟨s, hs, by rw [hd]⟩

example : Theme.names minecraftTheme "ceiling" = none ∧ minecraftTheme.generic ≠ [] := by decide

/-- C61 is false. -/
theorem C61_categories_false : ¬ C61_categories := by
  intro h
  obtain ⟨i, t', h1, _⟩ := h dullTheme (by simp [themes]) (fun _ => "") [] "generic" (fun _ => 4)
  rw [(C61_default_theme_raises (fun _ => "") [] fun _ => 4).1 rfl] at h1
  cases h1

/-- C61 for the manager the generators use: every category gives an index of the atlas, in every history, and the same
category gives the same index again. -/
theorem C61_automated (str : PyNum → String) (qs : List TexReq) (cat : String) :
    let m := (serve str (TexMan.init []) qs).1
    ∃ i, (m.getCAuto str cat).2 = .ok i ∧ i < (m.getCAuto str cat).1.atlas.length ∧
      ∀ qs', ((serve str (m.getCAuto str cat).1 qs').1.getCAuto str cat).2 = .ok i := by
  intro m
  have hinv : TexInv m := (serve_spec str _ (texInit []).1 qs).1
  have key : ∀ r g b, ∃ i, (m.getColour str r g b).2 = .ok i ∧ i < (m.getColour str r g b).1.atlas.length ∧
      ∀ qs', ((serve str (m.getColour str r g b).1 qs').1.getColour str r g b).2 = .ok i := by
    intro r g b
    obtain ⟨i, hi⟩ := C60_always_answered str m r g b
    obtain ⟨a1, a2, a3, _⟩ := ask_spec str m hinv (.colour r g b)
    have hb := a3 i hi
    obtain ⟨t, _, h2⟩ := a1.tex _ i hb
    refine ⟨i, hi, (List.getElem?_eq_some_iff.1 h2).1, fun qs' => ?_⟩
    have hb' := (serve_spec str _ a1 qs').2.1 _ _ hb
    simp only [askTex, TexReq.key] at hb'
    unfold TexMan.getColour
    simp only at hb' ⊢
    unfold TexMan.getColour at hb'
    simp only at hb'
    rw [hb']
  unfold TexMan.getCAuto
  split_ifs <;> exact key _ _ _

/-! ### C73 -/

/-- A history of requests to the rainbow manager, by category (`true`) or by colour. -/
def serveRainbow (str : PyNum → String) (m : TexMan) (t : Tape) : List Bool → TexMan
  | [] => m
  | true :: l => serveRainbow str (m.getCRainbow str t).1 (m.getCRainbow str t).2.2 l
  | false :: l => serveRainbow str (m.getColourRainbow str t).1 (m.getColourRainbow str t).2.2 l

/-- The name of the colour of hue `k / 64`. -/
def hueName (str : PyNum → String) (k : ℕ) : String :=
  colourName str (rainbow ((k * 4 : ℕ) / 256)).1 (rainbow ((k * 4 : ℕ) / 256)).2.1 (rainbow ((k * 4 : ℕ) / 256)).2.2

theorem rainbow_wraps : rainbow ((64 * 4 : ℕ) / 256) = rainbow ((0 * 4 : ℕ) / 256) := by decide +kernel

/-- C73: however many textures are requested, a map made with the rainbow manager has at most 66 textures. -/
theorem C73_rainbow_bounded (str : PyNum → String) (l : List Bool) (t : Tape) :
    (serveRainbow str (TexMan.init []) t l).atlas.length ≤ 66 := by
  let names : List String := "sky" :: "default" :: (List.range 64).map (hueName str)
  have key : ∀ (l : List Bool) (m : TexMan) (t : Tape), TexInv m → (∀ k ∈ dkeys m.backref, k ∈ names) →
      TexInv (serveRainbow str m t l) ∧ ∀ k ∈ dkeys (serveRainbow str m t l).backref, k ∈ names := by
    have step : ∀ (m : TexMan) (t : Tape), TexInv m → (∀ k ∈ dkeys m.backref, k ∈ names) →
        TexInv (m.getColourRainbow str t).1 ∧ ∀ k ∈ dkeys (m.getColourRainbow str t).1.backref, k ∈ names := by
      intro m t h hk
      refine ⟨(ask_spec str m h (.colour _ _ _)).1, ?_⟩
      intro k hk'
      simp only [TexMan.getColourRainbow, TexMan.getColour] at hk'
      generalize hd : (drawBelow 65 t).1 = d at hk'
      have hd65 : d < 65 := by rw [← hd]; exact Nat.mod_lt _ (by norm_num)
      have hn : hueName str d ∈ names := by
        simp only [names, List.mem_cons, List.mem_map, List.mem_range]
        by_cases h64 : d = 64
        · refine .inr (.inr ⟨0, by norm_num, ?_⟩)
          subst h64
          unfold hueName
          rw [rainbow_wraps]
        · exact .inr (.inr ⟨d, by omega, rfl⟩)
      cases hb : dget m.backref (hueName str d) with
      | some i =>
        unfold hueName at hb
        rw [hb] at hk'
        exact hk k hk'
      | none =>
        unfold hueName at hb
        rw [hb] at hk'
        simp only [mem_dkeys_dset] at hk'
        rcases hk' with rfl | hk'
        · exact hn
        · exact hk k hk'
    intro l
    induction l with
    | nil => exact fun m t h hk => ⟨h, hk⟩
    | cons b l ih =>
      intro m t h hk
      cases b with
      | true => obtain ⟨h1, h2⟩ := step m _ h hk; exact ih _ _ h1 h2
      | false => obtain ⟨h1, h2⟩ := step m _ h hk; exact ih _ _ h1 h2
  obtain ⟨h, hb⟩ := texInit []
  obtain ⟨h1, h2⟩ := key l (TexMan.init []) t h (by rw [hb]; simp [names])
  have hlen : (serveRainbow str (TexMan.init []) t l).atlas.length = (dkeys (serveRainbow str (TexMan.init []) t l).backref).length := by
    have := congrArg List.length h1.vals
    simp only [List.length_map, List.length_range] at this
    simp [dkeys, this]
  rw [hlen]
  have := (List.subperm_of_subset h1.keys h2).length_le
  simpa [names] using this

/-! ### C74 -/

/-- C74 as stated: for every map file name, after the outputs are written the map file holds the map and there is a file with
the config and its extra lines. -/
def C74_two_files : Prop := ∀ (fs : List (List Char × FileData)) (path : List Char) (conf : String) (extra : List String) (world : ℕ),
  dget (writeOutputs fs path conf extra world) path = some (.map world) ∧
  ∃ p, dget (writeOutputs fs path conf extra world) p = some (.conf (conf ++ String.join (extra.map fun l => l ++ "\n")))

/-- The extension that is replaced. -/
def mpz : List Char := ['.', 'm', 'p', 'z']

theorem replace_id (n : ℕ) (s : List Char) (h : ¬ mpz <:+: s) (nw : List Char) : pyReplaceAux mpz nw n s = s := by
  induction n generalizing s with
  | zero => rfl
  | succ n ih =>
    cases s with
    | nil => rfl
    | cons c s =>
      have h1 : mpz.isPrefixOf (c :: s) = false := by
        rw [Bool.eq_false_iff]
        intro e
        exact h (List.isPrefixOf_iff_prefix.1 e).isInfix
      rw [pyReplaceAux, h1, if_neg (by simp), ih s fun e => h (e.trans (List.suffix_cons c s).isInfix)]

theorem replace_first (n : ℕ) (a b : List Char) (h : ¬ mpz <:+: a) (hn : (a ++ mpz ++ b).length ≤ n) (nw : List Char) :
    ∃ b', pyReplaceAux mpz nw n (a ++ mpz ++ b) = a ++ nw ++ b' ∧ ((¬ mpz <:+: b) → b' = b) := by
  induction a generalizing n with
  | nil =>
    cases n with
    | zero => simp [mpz] at hn
    | succ n =>
      refine ⟨pyReplaceAux mpz nw n b, ?_, fun hb => replace_id _ _ hb _⟩
      simp [pyReplaceAux, mpz, List.isPrefixOf]
  | cons c a ih =>
    cases n with
    | zero => simp at hn
    | succ n =>
      obtain ⟨b', h1, h2⟩ := ih n (fun e => h (e.trans (List.suffix_cons c a).isInfix)) (by simpa using hn)
      refine ⟨b', ?_, h2⟩
      have h3 : mpz.isPrefixOf (c :: a ++ mpz ++ b) = false := by
        rw [Bool.eq_false_iff]
        intro e
        have hp := List.isPrefixOf_iff_prefix.1 e
        refine h (List.IsPrefix.isInfix ?_)
        match a with
        | [] => simp [mpz] at hp
        | [x] => simp [mpz] at hp
        | [x, y] => simp [mpz] at hp
        | x :: y :: z :: a =>
          simp only [mpz, List.cons_append, List.cons_prefix_cons] at hp ⊢
          exact ⟨hp.1, hp.2.1, hp.2.2.1, hp.2.2.2.1, List.nil_prefix⟩
      rw [List.cons_append, List.cons_append, pyReplaceAux, ← List.cons_append, ← List.cons_append, h3, if_neg (by simp), h1]
      rfl

/-- Every text with an occurrence of the extension has a first one. -/
theorem first_mpz (s : List Char) (h : mpz <:+: s) : ∃ a b, s = a ++ mpz ++ b ∧ ¬ mpz <:+: a := by
  induction s with
  | nil => simp [mpz] at h
  | cons c s ih =>
    by_cases hp : mpz <+: c :: s
    · obtain ⟨b, hb⟩ := hp
      exact ⟨[], b, by simp [hb], by simp [mpz]⟩
    · have hs : mpz <:+: s := by
        rcases List.infix_cons_iff.1 h with h | h
        · exact absurd h hp
        · exact h
      obtain ⟨a, b, e, ha⟩ := ih hs
      refine ⟨c :: a, b, by simp [e], ?_⟩
      intro hi
      rcases List.infix_cons_iff.1 hi with h' | h'
      · refine hp (h'.trans ?_)
        rw [e, List.append_assoc]
        exact List.prefix_append (c :: a) _
      · exact ha h'

/-- The config file is another file exactly when the name of the map contains `.mpz`. -/
theorem confName_ne_iff (path : List Char) : confName path ≠ path ↔ mpz <:+: path := by
  constructor
  · intro h
    by_contra hn
    exact h (replace_id _ _ hn _)
  · intro h
    obtain ⟨a, b, e, ha⟩ := first_mpz path h
    obtain ⟨b', h1, _⟩ := replace_first path.length a b ha (by rw [e]) ['.', 'c', 'f', 'g']
    intro h2
    unfold confName at h2
    have h3 : pyReplaceAux mpz ['.', 'c', 'f', 'g'] path.length path = path := h2
    rw [← e] at h1
    rw [h1, e, List.append_assoc, List.append_assoc] at h3
    have := List.append_cancel_left h3
    simp [mpz] at this

/-- C74: a map file name that ends in `.mpz` and contains it nowhere else gets a config file that differs in the extension
only. -/
theorem C74_config_name (stem : List Char) (h : ¬ mpz <:+: stem) : confName (stem ++ mpz) = stem ++ ['.', 'c', 'f', 'g'] := by
  obtain ⟨b', h1, h2⟩ := replace_first (stem ++ mpz).length stem [] h (by simp) ['.', 'c', 'f', 'g']
  rw [h2 (by simp [mpz])] at h1
  simp only [List.append_nil] at h1
  exact h1

/-- C74, what holds: if the map file name contains `.mpz`, the map file holds the map, the config file holds the config with its
extra lines, and all other files are untouched. -/
theorem C74_two_files_partial (fs : List (List Char × FileData)) (path : List Char) (h : mpz <:+: path) (conf : String)
    (extra : List String) (world : ℕ) :
    dget (writeOutputs fs path conf extra world) path = some (.map world) ∧
    dget (writeOutputs fs path conf extra world) (confName path) =
      some (.conf (conf ++ String.join (extra.map fun l => l ++ "\n"))) ∧
    ∀ p, p ≠ path → p ≠ confName path → dget (writeOutputs fs path conf extra world) p = dget fs p := by
  have hne := (confName_ne_iff path).2 h
  unfold writeOutputs
  simp only [dget_dset, if_true]
  refine ⟨trivial, ?_, ?_⟩
  · rw [if_neg fun e => hne e.symm]
  · intro p h1 h2
    simp only [if_neg h1.symm, if_neg h2.symm]

/-- C74: otherwise the config is lost: no file but the map file is written. -/
theorem C74_config_lost (fs : List (List Char × FileData)) (path : List Char) (h : ¬ mpz <:+: path) (conf : String)
    (extra : List String) (world : ℕ) (p : List Char) :
    dget (writeOutputs fs path conf extra world) p = if p = path then some (.map world) else dget fs p := by
  have he : confName path = path := by
    by_contra hn
    exact h ((confName_ne_iff path).1 hn)
  unfold writeOutputs
  simp only [he, dget_dset]
  by_cases hp : p = path
  · simp [hp]
  · simp [hp, Ne.symm hp]

/-- C74 is false. -/
theorem C74_two_files_false : ¬ C74_two_files := by
  intro h
  obtain ⟨_, p, hp⟩ := h [] ['m', 'a', 'p'] "texture" [] 7
  rw [C74_config_lost [] ['m', 'a', 'p'] (by decide) "texture" [] 7 p] at hp
  split_ifs at hp
  · exact absurd hp (by simp)
  · exact absurd hp (by simp [dget])

example : mpz <:+: ['m', 'a', 'p', '.', 'm', 'p', 'z'] ∧ ¬ mpz <:+: ['m', 'a', 'p'] := by decide

/-! ### C75 -/

/-- The image files named by the config entry of a texture below its directory; `none` where the attribute is missing. -/
def Tex.images (t : Tex) : List (Option String) :=
  match t.kind with
  | .sky => []
  | .dflt => []
  | .colour => [some "empty.png"]
  | .simple => [t.c']
  | .bump => [t.c', t.n', t.s']
  | .parallax => [t.c', t.n', t.s', t.z']
  | .glow => [t.c', t.n', t.s', t.z', t.g']

/-- `x` occurs in `s`. -/
def Occurs (x s : String) : Prop := ∃ a b, s = a ++ x ++ b

theorem Occurs.left {x s : String} (h : Occurs x s) (y : String) : Occurs x (s ++ y) := by
  obtain ⟨a, b, rfl⟩ := h
  exact ⟨a, b ++ y, by simp only [String.append_assoc]⟩

theorem Occurs.right {x s : String} (h : Occurs x s) (y : String) : Occurs x (y ++ s) := by
  obtain ⟨a, b, rfl⟩ := h
  exact ⟨y ++ a, b, by simp only [String.append_assoc]⟩

/-- How an image is named in the config. -/
def quoted (t : Tex) (o : Option String) : String := "\"" ++ t.basepath ++ "/" ++ fmt o ++ "\""

theorem occurs_texLine (ch : String) (t : Tex) (o : Option String) : Occurs (quoted t o) (texLine ch t o) := by
  have l1 : " \"" = " " ++ "\"" := by decide +kernel
  have l2 : "\"\n" = "\"" ++ "\n" := by decide +kernel
  exact ⟨"texture " ++ ch ++ " ", "\n", by simp only [texLine, quoted, l1, l2, String.append_assoc]⟩

theorem occurs_c (p q : String) (t : Tex) (o : Option String) (p' q' : String) (hp : p = p' ++ "\"") (hq : q = "\"" ++ q') :
    Occurs (quoted t o) (p ++ t.basepath ++ "/" ++ fmt o ++ q) :=
  ⟨p', q', by rw [hp, hq]; simp only [quoted, String.append_assoc]⟩

theorem occurs_c' (p q r : String) (t : Tex) (o : Option String) (p' q' : String) (hp : p = p' ++ "\"") (hq : q = "\"" ++ q') :
    Occurs (quoted t o) (r ++ p ++ t.basepath ++ "/" ++ fmt o ++ q) :=
  ⟨r ++ p', q', by rw [hp, hq]; simp only [quoted, String.append_assoc]⟩

/-- C75: the config entry of a texture names each of its images. -/
theorem C75_entry_names_images (str : PyNum → String) (t : Tex) (i : ℕ) (o : Option String) (ho : o ∈ Tex.images t) :
    Occurs (quoted t o) (t.conf str i) := by
  have l1 : "\nsetshader stdworld\ntexture c \"" = "\nsetshader stdworld\ntexture c " ++ "\"" := by decide +kernel
  have l2 : "/empty.png\" 0 0 0 1 // " = "/" ++ "empty.png" ++ ("\"" ++ " 0 0 0 1 // ") := by decide +kernel
  have l3 : "\" 0 0 0 " = "\"" ++ " 0 0 0 " := by decide +kernel
  have l4 : "\ntexture c \"" = "\ntexture c " ++ "\"" := by decide +kernel
  have l5 : "\" 0 0 0 0.500000 // " = "\"" ++ " 0 0 0 0.500000 // " := by decide +kernel
  have l6 : "texture c \"" = "texture c " ++ "\"" := by decide +kernel
  unfold Tex.images at ho
  unfold Tex.conf
  split at ho <;> rename_i hk <;> rw [hk] <;> simp only [List.mem_cons, List.not_mem_nil, or_false] at ho
  · subst ho
    have h0 : Occurs (quoted t (some "empty.png")) ("\nsetshader stdworld\ntexture c \"" ++ t.basepath ++ "/empty.png\" 0 0 0 1 // ") :=
      ⟨"\nsetshader stdworld\ntexture c ", " 0 0 0 1 // ", by simp only [quoted, fmt, Option.getD_some, l1, l2, String.append_assoc]⟩
    repeat' first
      | with_reducible exact h0
      | with_reducible refine Occurs.left ?_ _
  · subst ho
    repeat' first
      | with_reducible exact occurs_c _ _ _ _ _ _ l1 l3
      | with_reducible refine Occurs.left ?_ _
  · rcases ho with rfl | rfl | rfl
    all_goals
      repeat' first
        | with_reducible exact (occurs_texLine _ _ _).right _
        | with_reducible exact occurs_c' _ _ _ _ _ _ _ l4 l5
        | with_reducible refine Occurs.left ?_ _
  · rcases ho with rfl | rfl | rfl | rfl
    all_goals
      repeat' first
        | with_reducible exact (occurs_texLine _ _ _).right _
        | with_reducible exact occurs_c' _ _ _ _ _ _ _ l6 l5
        | with_reducible refine Occurs.left ?_ _
  · rcases ho with rfl | rfl | rfl | rfl | rfl
    all_goals
      repeat' first
        | with_reducible exact (occurs_texLine _ _ _).right _
        | with_reducible exact occurs_c' _ _ _ _ _ _ _ l6 l5
        | with_reducible refine Occurs.left ?_ _

/-- All names a theme lists. -/
def Theme.allNames (th : Theme) : List String := th.generic ++ th.column ++ th.floor ++ th.wall ++ th.accent

/-- C75 as stated: the textures a theme lists have no missing image. -/
def C75_no_missing_image : Prop := ∀ th ∈ themes, ∀ s ∈ Theme.allNames th, ∀ t, themeTex th.texs s = some t → none ∉ Tex.images t

/-- C75: this holds for three of the four themes. -/
theorem C75_no_missing_image_partial : ∀ th ∈ [minecraftTheme, paperTheme, primaryTheme], ∀ s ∈ Theme.allNames th, ∀ t,
    themeTex th.texs s = some t → none ∉ Tex.images t := by
  have h : ∀ th ∈ [minecraftTheme, paperTheme, primaryTheme], ∀ s ∈ Theme.allNames th,
      ((themeTex th.texs s).map fun t => !(Tex.images t).contains none) ≠ some false := by decide +kernel
  intro th hth s hs t ht hn
  refine h th hth s hs ?_
  rw [ht]
  simpa using hn

/-- C75 is false: with the default theme, asking for the texture of a column may put the file name `None` in the config. -/
theorem C75_no_missing_image_false : ¬ C75_no_missing_image := by
  intro h
  have h1 : ((themeTex dullTheme.texs "tex161").map fun t => (Tex.images t).contains none) = some true := by decide +kernel
  obtain ⟨t, ht, h2⟩ := Option.map_eq_some_iff.1 h1
  exact h dullTheme (by simp [themes]) "tex161" (by decide +kernel) t ht (by simpa using h2)

/-- C75, for textures of any kind: a texture whose files are copied has each image of its config entry among them, and no other files. -/
theorem C75_files (t : Tex) (h : t.copied = true) (o : Option String) : o ∈ t.files ↔ o ∈ Tex.images t := by
  unfold Tex.files Tex.images
  rw [if_pos h]
  cases t.kind <;> simp

/-- A bump-mapped texture with three images. -/
example : Tex.files { kind := .bump, cls := "", copied := true, c' := some "a", n' := some "b", s' := some "c" } = [some "a", some "b", some "c"] := by decide +kernel

/-- No texture of a theme is named like a colour. -/
theorem themes_no_colour (str : PyNum → String) (th : Theme) (hth : th ∈ themes) : ∀ p ∈ th.texs, ∀ r g b, p.1 ≠ colourName str r g b := by
  have h : ∀ th ∈ themes, ∀ p ∈ th.texs, p.1.toList.take 2 ≠ ['c', '_'] := by decide +kernel
  intro p hp r g b e
  obtain ⟨l, hl⟩ := name_of_colour str r g b
  refine h th hth p hp ?_
  rw [e, hl]
  rfl

/-- Where the textures of an atlas come from. -/
theorem atlas_origin (str : PyNum → String) (th : Theme) (hth : th ∈ themes) (qs : List TexReq)
    (hq : ∀ s, TexReq.name s ∈ qs → s ∈ Theme.allNames th) (i : ℕ) (t : Tex)
    (ht : (serve str (TexMan.init th.texs) qs).1.atlas[i]? = some (i, t)) :
    (∃ s, (s = "sky" ∨ s = "default" ∨ TexReq.name s ∈ qs) ∧ themeTex th.texs s = some t) ∨
      (∃ r g b, TexReq.colour r g b ∈ qs) ∧ ∃ r g b, t = colourTex r g b := by
  have hc := themes_no_colour str th hth
  obtain ⟨h, hinit⟩ := texInit th.texs
  obtain ⟨c1, c2, c3, c4⟩ := serve_spec str (TexMan.init th.texs) h qs
  have hk := known_serve str th.texs _ (known_init str th.texs) qs
  obtain ⟨k, hk1, hk2⟩ := atlas_key _ c1 i t ht
  rcases c4 k i hk1 with h'' | ⟨q, hq'⟩
  · have := dget_some_mem _ _ _ h''
    rw [hinit] at this
    simp only [List.mem_cons, Prod.mk.injEq, List.not_mem_nil, or_false] at this
    rcases hk k t hk2 with h' | ⟨r, g, b, e, -⟩
    · refine .inl ⟨k, ?_, h'⟩
      rcases this with ⟨rfl, _⟩ | ⟨rfl, _⟩ <;> simp
    · obtain ⟨l, hl⟩ := name_of_colour str r g b
      rw [← e] at hl
      have h1 : "sky".toList.take 1 ≠ ['c'] ∧ "default".toList.take 1 ≠ ['c'] := by decide +kernel
      rcases this with ⟨rfl, _⟩ | ⟨rfl, _⟩
      · exact absurd (by rw [hl]; rfl) h1.1
      · exact absurd (by rw [hl]; rfl) h1.2
  · have hn : ((serve str (TexMan.init th.texs) qs).1.backref.map Prod.snd).Nodup := by rw [c1.vals]; exact List.nodup_range
    have := List.inj_on_of_nodup_map hn (dget_some_mem _ _ _ (c3 q i hq')) (dget_some_mem _ _ _ hk1) rfl
    have hkey : q.key str = k := (Prod.mk.inj this).1
    have hqs : q ∈ qs := by
      rw [← serve_requests str (TexMan.init th.texs) qs]
      exact List.mem_map.2 ⟨_, hq', rfl⟩
    cases q with
    | name s =>
      simp only [TexReq.key] at hkey
      subst hkey
      rcases hk s t hk2 with h' | ⟨r, g, b, e, -⟩
      · exact .inl ⟨s, .inr (.inr hqs), h'⟩
      · have hlisted : ∀ th ∈ themes, ∀ s ∈ Theme.allNames th, s.toList.take 2 ≠ ['c', '_'] := by decide +kernel
        obtain ⟨l, hl⟩ := name_of_colour str r g b
        exact absurd (by rw [e, hl]; rfl) (hlisted th hth s (hq s hqs))
    | colour r g b =>
      refine .inr ⟨⟨r, g, b, hqs⟩, ?_⟩
      simp only [TexReq.key] at hkey
      rcases hk k t hk2 with h' | ⟨r, g, b, -, e⟩
      · rw [← hkey, themeTex_colour str th.texs hc] at h'
        cases h'
      · exact ⟨r, g, b, e⟩

/-- C75: in every history of requests for colours and for names the theme lists, every image that a config entry names in the
directory the files are copied to is one of the copied files. -/
theorem C75_images_copied (str : PyNum → String) (th : Theme) (hth : th ∈ themes)
    (qs : List TexReq) (hq : ∀ s, TexReq.name s ∈ qs → s ∈ Theme.allNames th) (i : ℕ) (t : Tex)
    (ht : (serve str (TexMan.init th.texs) qs).1.atlas[i]? = some (i, t)) (hb : t.basepath = "hxr/textures") :
    ∀ o ∈ Tex.images t, o ≠ none ∧ o ∈ (serve str (TexMan.init th.texs) qs).1.copied := by
  have hdata : ∀ th ∈ themes, ∀ s ∈ "sky" :: "default" :: Theme.allNames th, ((themeTex th.texs s).map fun t =>
      !decide (t.basepath = "hxr/textures") || (Tex.images t).all fun o => o.isSome && t.files.contains o) ≠ some false := by
    decide +kernel
  have good : ∀ o ∈ Tex.images t, o ≠ none ∧ o ∈ t.files := by
    rcases atlas_origin str th hth qs hq i t ht with ⟨s, hs, hth'⟩ | ⟨-, r, g, b, rfl⟩
    · intro o ho
      have := hdata th hth s (by
        rcases hs with rfl | rfl | hs
        · simp
        · simp
        · exact List.mem_cons_of_mem _ (List.mem_cons_of_mem _ (hq s hs)))
      rw [hth'] at this
      simp only [Option.map_some, ne_eq, Option.some.injEq, Bool.not_eq_false, Bool.or_eq_true, Bool.not_eq_true', decide_eq_false_iff_not,
        List.all_eq_true, Bool.and_eq_true] at this
      rcases this with h' | h'
      · exact absurd hb h'
      · obtain ⟨h1, h2⟩ := h' o ho
        exact ⟨by rintro rfl; simp at h1, by simpa using h2⟩
    · intro o ho
      simp only [Tex.images, colourTex, List.mem_singleton] at ho
      subst ho
      simp [Tex.files, colourTex]
  intro o ho
  obtain ⟨h1, h2⟩ := good o ho
  exact ⟨h1, List.mem_flatMap.2 ⟨_, List.mem_of_getElem? ht, h2⟩⟩

/-- Texture images of a history with a theme texture and colours. -/
example : (∀ s, TexReq.name s ∈ [TexReq.name "gold", .colour (.int 1) (.int 0) (.int 0)] → s ∈ Theme.allNames minecraftTheme) ∧
    (serve someStr (TexMan.init minecraftTheme.texs) [TexReq.name "gold"]).1.copied =
      [some "gold.png", some "gold_n.png", some "gold_s.png", some "gold_z.png"] := by
  refine ⟨?_, by decide +kernel⟩
  intro s hs
  simp only [List.mem_cons, TexReq.name.injEq, reduceCtorEq, List.not_mem_nil, or_false] at hs
  subst hs
  decide +kernel

end Verif.Props
