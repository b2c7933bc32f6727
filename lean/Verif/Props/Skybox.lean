import Verif.Skybox
import Verif.Props.MapRewrite

/-!
C100: installing a sky box puts the six images it consists of where a map with that sky box looks for them.
-/

namespace Verif.Props
open Verif

/-- A possible file system: the root is a directory, and whatever exists lies in a directory. -/
def SkyWF (fs : FileSys) : Prop := fs [] = some .dir ∧ ∀ n q, fs (n :: q) ≠ none → fs q = some .dir

/-- The parts of a path separated by slashes. -/
def comps : List Char → List (List Char)
  | [] => [[]]
  | c :: cs =>
    if c = '/' then [] :: comps cs
    else match comps cs with
      | [] => [[c]]
      | w :: ws => (c :: w) :: ws

/-- Where the game in directory `base` looks for an image whose path is written in a map. -/
def gamePath (base : FsPath) (s : String) : FsPath := ((comps s.toList).map String.ofList).reverse ++ "data" :: base

/-- The endings of the six images: back, down, front, left, right, up. -/
def skyEndings : List String := ["_bk.jpg", "_dn.jpg", "_ft.jpg", "_lf.jpg", "_rt.jpg", "_up.jpg"]

/-- The sky box written in the map is complete in the game's directory: each of the six images is the one of the program. -/
def SkyComplete (mod : String → Option Bytes) (name : String) (base : FsPath) (fs : FileSys) : Prop :=
  ∀ e ∈ skyEndings, ∃ bs, mod (name ++ e) = some bs ∧ fs (gamePath base (skyboxPath name ++ e)) = some (.file bs)

/-- The images that come with the program. -/
def SkyShipped (mod : String → Option Bytes) : Prop := ∀ f, (mod f).isSome ↔ f ∈ skyShipped

/-- No part of the target directory is a file. -/
def SkyFree (fs : FileSys) (base : FsPath) : Prop := ∀ p, p <:+ skyDir base → ∀ bs, fs p ≠ some (.file bs)

/-- No directory has the name of one of the images. -/
def SkyNoDir (fs : FileSys) (name : String) (base : FsPath) : Prop := ∀ e ∈ skyEndings, fs ((name ++ e) :: skyDir base) ≠ some .dir

theorem skyFiles_eq (name : String) : skyFiles name = skyEndings.map (name ++ ·) := rfl

theorem comps_plain (w : List Char) (h : '/' ∉ w) : comps w = [w] := by
  induction w with
  | nil => rfl
  | cons c cs ih =>
    simp only [List.mem_cons, not_or] at h
    rw [comps, if_neg (Ne.symm h.1), ih h.2]

theorem comps_slash (w r : List Char) (h : '/' ∉ w) : comps (w ++ '/' :: r) = w :: comps r := by
  induction w with
  | nil => simp [comps]
  | cons c cs ih =>
    simp only [List.mem_cons, not_or] at h
    rw [List.cons_append, comps, if_neg (Ne.symm h.1), ih h.2]

theorem gamePath_sky (base : FsPath) (name e : String) (hn : '/' ∉ name.toList) (he : e ∈ skyEndings) :
    gamePath base (skyboxPath name ++ e) = (name ++ e) :: skyDir base := by
  have h : '/' ∉ (name ++ e).toList := by
    have : ∀ e ∈ skyEndings, '/' ∉ e.toList := by decide +kernel
    simp [hn, this e he]
  have e1 : (skyboxPath name ++ e).toList = "hxr".toList ++ '/' :: ("skybox".toList ++ '/' :: (name ++ e).toList) := by
    simp [skyboxPath]
  rw [gamePath, e1, comps_slash _ _ (by decide), comps_slash _ _ (by decide), comps_plain _ h]
  simp [skyDir]

/-- Everything above something that exists is a directory. -/
theorem sky_above {fs : FileSys} (h : SkyWF fs) : ∀ p : FsPath, fs p ≠ none → ∀ q, q <:+ p → q ≠ p → fs q = some .dir := by
  intro p
  induction p with
  | nil => intro _ q hq hne; exact absurd (List.suffix_nil.1 hq) hne
  | cons n r ih =>
    intro hp q hq hne
    rcases List.suffix_cons_iff.1 hq with rfl | hq
    · exact absurd rfl hne
    · have hr := h.2 n r hp
      by_cases e : q = r
      · rw [e, hr]
      · exact ih (by rw [hr]; simp) q hq e

/-- The file system with a directory and everything above it made. -/
def withDirs (fs : FileSys) (p : FsPath) : FileSys := fun q => if q <:+ p then some .dir else fs q

theorem makedirs_eq {fs : FileSys} (h : SkyWF fs) : ∀ p : FsPath, (∀ q, q <:+ p → ∀ bs, fs q ≠ some (.file bs)) → fs p = none →
    fs.makedirs p = (withDirs fs p, .ok ()) := by
  intro p
  induction p with
  | nil => intro _ h0; rw [h.1] at h0; cases h0
  | cons n q ih =>
    intro hfree hnone
    have hlen : ¬ (n :: q) <:+ q := fun hs => by have := hs.length_le; simp at this
    unfold FileSys.makedirs
    by_cases hq : fs q = none
    · rw [if_neg (by simp [FileSys.exists', hq]), ih (fun r hr => hfree r (hr.trans (List.suffix_cons n q))) hq]
      have e1 : withDirs fs q (n :: q) = none := by simp [withDirs, hlen, hnone]
      have e2 : withDirs fs q q = some .dir := by simp [withDirs]
      simp only [FileSys.mkdir, e1, e2]
      congr 1
      funext r
      simp only [FileSys.put, withDirs, List.suffix_cons_iff]
      by_cases r1 : r = n :: q <;> simp [r1]
    · rw [if_pos (by simpa [FileSys.exists', Option.isSome_iff_ne_none] using hq)]
      have hd : fs q = some .dir := by
        cases hv : fs q with
        | none => exact absurd hv hq
        | some v =>
          cases v with
          | dir => rfl
          | file bs => exact absurd hv (hfree q (List.suffix_cons n q) bs)
      simp only [FileSys.mkdir, hnone, hd]
      congr 1
      funext r
      simp only [FileSys.put, withDirs, List.suffix_cons_iff]
      by_cases r1 : r = n :: q
      · simp [r1]
      · by_cases r2 : r <:+ q
        · by_cases r3 : r = q
          · simp [r1, r2, r3, hd]
          · simp [r1, r2, sky_above h q hq r r2 r3]
        · simp [r1, r2]

theorem makedirs_blocked {fs : FileSys} (h : SkyWF fs) : ∀ p : FsPath, (∃ q, q <:+ p ∧ q ≠ p ∧ ∃ bs, fs q = some (.file bs)) →
    fs.makedirs p = (fs, .error .notADirectory) := by
  intro p
  induction p with
  | nil => rintro ⟨q, hq, hne, -⟩; exact absurd (List.suffix_nil.1 hq) hne
  | cons n q ih =>
    rintro ⟨r, hr, hne, bs, hf⟩
    rcases List.suffix_cons_iff.1 hr with rfl | hr
    · exact absurd rfl hne
    unfold FileSys.makedirs
    by_cases e : r = q
    · subst e
      have : fs (n :: r) = none := by
        by_contra hc
        rw [h.2 n r hc] at hf; cases hf
      rw [if_pos (by simp [FileSys.exists', hf])]
      simp only [FileSys.mkdir, this, hf]
    · have hq : fs q = none := by
        by_contra hc
        rw [sky_above h q hc r hr e] at hf; cases hf
      rw [if_neg (by simp [FileSys.exists', hq]), ih ⟨r, hr, e, bs, hf⟩]

/-- The file system with images put into a directory. -/
def withFiles (fs : FileSys) (mod : String → Option Bytes) (dst : FsPath) (fns : List String) : FileSys := fun q =>
  match q with
  | [] => fs []
  | f :: r => if r = dst ∧ f ∈ fns then (mod f).map .file else fs (f :: r)

theorem copyAll_eq (mod : String → Option Bytes) (dst : FsPath) : ∀ (fns : List String) (fs : FileSys), fs dst = some .dir →
    (∀ f ∈ fns, mod f ≠ none) → (∀ f ∈ fns, fs (f :: dst) ≠ some .dir) →
    FileSys.copyAll mod dst fns fs = (withFiles fs mod dst fns, .ok ()) := by
  intro fns
  induction fns with
  | nil =>
    intro fs _ _ _
    simp only [FileSys.copyAll]
    congr 1
    funext q
    cases q <;> simp [withFiles]
  | cons f fns ih =>
    intro fs hd hm hn
    obtain ⟨bs, hb⟩ := Option.ne_none_iff_exists'.1 (hm f List.mem_cons_self)
    have hc : fs.copyTo f (mod f) dst = (fs.put (f :: dst) (.file bs), .ok ()) := by
      simp only [FileSys.copyTo, hb, hd]
      have := hn f List.mem_cons_self
      cases hv : fs (f :: dst) with
      | none => rfl
      | some v => cases v with
        | dir => exact absurd hv this
        | file _ => rfl
    rw [FileSys.copyAll, hc]
    have hne : dst ≠ f :: dst := fun e => by have := congrArg List.length e; simp at this
    simp only
    rw [ih _ (by simp [FileSys.put, hne, hd]) (fun g hg => hm g (List.mem_cons_of_mem _ hg)) (fun g hg => by
      simp only [FileSys.put]
      split
      · simp
      · exact hn g (List.mem_cons_of_mem _ hg))]
    congr 1
    funext q
    cases q with
    | nil => simp [withFiles, FileSys.put]
    | cons g r =>
      simp only [withFiles, FileSys.put, List.mem_cons]
      by_cases hr : r = dst
      · subst hr
        by_cases hg : g ∈ fns
        · simp [hg]
        · by_cases hgf : g = f
          · subst hgf; simp [hg, hb]
          · simp [hg, hgf]
      · simp [hr]

/-- The file system with the sky box installed. -/
def skyAfter (mod : String → Option Bytes) (name : String) (base : FsPath) (fs : FileSys) : FileSys :=
  withFiles (withDirs fs (skyDir base)) mod (skyDir base) (skyFiles name)

theorem withDirs_self {fs : FileSys} (h : SkyWF fs) (p : FsPath) (hp : fs p = some .dir) : withDirs fs p = fs := by
  funext q
  simp only [withDirs]
  split
  · next hq =>
    by_cases e : q = p
    · rw [e, hp]
    · rw [sky_above h p (by rw [hp]; simp) q hq e]
  · rfl

theorem not_dir_suffix (f : String) (p : FsPath) : ¬ (f :: p) <:+ p := fun hs => by have := hs.length_le; simp at this

theorem skyInit_eq {mod : String → Option Bytes} {name : String} {base : FsPath} {fs : FileSys} (h : SkyWF fs) (hf : SkyFree fs base)
    (hn : SkyNoDir fs name base) (hm : ∀ e ∈ skyEndings, mod (name ++ e) ≠ none) :
    skyInit mod name base fs = (skyAfter mod name base fs, .ok ()) := by
  have hm' : ∀ f ∈ skyFiles name, mod f ≠ none := by
    rw [skyFiles_eq]; intro f hf; obtain ⟨e, he, rfl⟩ := List.mem_map.1 hf; exact hm e he
  have hn' : ∀ f ∈ skyFiles name, fs (f :: skyDir base) ≠ some .dir := by
    rw [skyFiles_eq]; intro f hf; obtain ⟨e, he, rfl⟩ := List.mem_map.1 hf; exact hn e he
  have hn2 : ∀ f ∈ skyFiles name, withDirs fs (skyDir base) (f :: skyDir base) ≠ some .dir := by
    intro f hf'
    simp only [withDirs, if_neg (not_dir_suffix f (skyDir base))]
    exact hn' f hf'
  unfold skyInit skyAfter
  split
  · next he =>
    have hd : fs (skyDir base) = some .dir := by
      cases hv : fs (skyDir base) with
      | none => simp [FileSys.exists', hv] at he
      | some v => cases v with
        | dir => rfl
        | file bs => exact absurd hv (hf _ List.suffix_rfl bs)
    rw [withDirs_self h _ hd]
    exact copyAll_eq mod _ _ fs hd hm' hn'
  · next he =>
    have hd : fs (skyDir base) = none := by simpa [FileSys.exists'] using he
    rw [makedirs_eq h _ hf hd]
    exact copyAll_eq mod _ _ _ (by simp [withDirs]) hm' hn2

theorem skyAfter_file {mod : String → Option Bytes} {name : String} {base : FsPath} {fs : FileSys} {e : String} (he : e ∈ skyEndings) :
    skyAfter mod name base fs ((name ++ e) :: skyDir base) = (mod (name ++ e)).map .file := by
  simp only [skyAfter, withFiles, skyFiles_eq, true_and]
  rw [if_pos (List.mem_map.2 ⟨e, he, rfl⟩)]

theorem sky_dir_of_suffix {mod : String → Option Bytes} {name : String} {base : FsPath} {fs : FileSys} {p : FsPath}
    (hp : p <:+ skyDir base) : skyAfter mod name base fs p = some .dir := by
  have e : withDirs fs (skyDir base) p = some .dir := by simp [withDirs, hp]
  cases p with
  | nil => simpa [skyAfter, withFiles] using e
  | cons f r =>
    simp only [skyAfter, withFiles]
    rw [if_neg, e]
    rintro ⟨rfl, -⟩
    exact not_dir_suffix _ _ hp

theorem skyAfter_other {mod : String → Option Bytes} {name : String} {base : FsPath} {fs : FileSys} {p : FsPath}
    (hp : ¬ p <:+ skyDir base) (hf : ∀ e ∈ skyEndings, p ≠ (name ++ e) :: skyDir base) : skyAfter mod name base fs p = fs p := by
  cases p with
  | nil => exact absurd List.nil_suffix hp
  | cons f r =>
    simp only [skyAfter, withFiles]
    rw [if_neg, withDirs, if_neg hp]
    rintro ⟨rfl, hm⟩
    rw [skyFiles_eq] at hm
    obtain ⟨e, he, rfl⟩ := List.mem_map.1 hm
    exact hf e he rfl

theorem sky_wf {mod : String → Option Bytes} {name : String} {base : FsPath} {fs : FileSys} (h : SkyWF fs)
    (hn : SkyNoDir fs name base) : SkyWF (skyAfter mod name base fs) := by
  refine ⟨sky_dir_of_suffix List.nil_suffix, fun n q hq => ?_⟩
  by_cases hs : q <:+ skyDir base
  · exact sky_dir_of_suffix hs
  · have h1 : ¬ (n :: q) <:+ skyDir base := fun hc => hs ((List.suffix_cons n q).trans hc)
    have h2 : ∀ e ∈ skyEndings, n :: q ≠ (name ++ e) :: skyDir base := by
      rintro e - hc
      injection hc with _ hc
      exact hs (hc ▸ List.suffix_rfl)
    rw [skyAfter_other h1 h2] at hq
    have hd := h.2 n q hq
    rw [skyAfter_other hs ?_, hd]
    rintro e he rfl
    exact hn e he hd

/-- **C100, full claim**: for every directory of the game and each class of sky box, the constructor succeeds and the images are where
a map with that sky box names them. -/
def C100_installs : Prop := ∀ (mod : String → Option Bytes) (name : String) (base : FsPath) (fs : FileSys),
  SkyShipped mod → name ∈ skyNames → SkyWF fs →
  (skyInit mod name base fs).2 = .ok () ∧ SkyComplete mod name base (skyInit mod name base fs).1

/-- **C100, the part that holds**: for every class of sky box whose six images exist, if the target directory is missing or a directory and
no directory has the name of an image, the constructor succeeds, every image the map names is there, everything above them is a
directory, and no other path changes. Missing: classes without images, and target paths that are taken. -/
theorem C100_installs_partial (mod : String → Option Bytes) (name : String) (base : FsPath) (fs : FileSys)
    (hslash : '/' ∉ name.toList) (hm : ∀ e ∈ skyEndings, mod (name ++ e) ≠ none) (h : SkyWF fs) (hf : SkyFree fs base)
    (hn : SkyNoDir fs name base) :
    (skyInit mod name base fs).2 = .ok () ∧ SkyComplete mod name base (skyInit mod name base fs).1 ∧
      SkyWF (skyInit mod name base fs).1 ∧
      (∀ p, p <:+ skyDir base → (skyInit mod name base fs).1 p = some .dir) ∧
      (∀ p, ¬ p <:+ skyDir base → (∀ e ∈ skyEndings, p ≠ gamePath base (skyboxPath name ++ e)) → (skyInit mod name base fs).1 p = fs p) := by
  rw [skyInit_eq h hf hn hm]
  refine ⟨rfl, fun e he => ?_, sky_wf h hn, fun p hp => sky_dir_of_suffix hp, fun p hp hne => ?_⟩
  · obtain ⟨bs, hb⟩ := Option.ne_none_iff_exists'.1 (hm e he)
    exact ⟨bs, hb, by rw [gamePath_sky base name e hslash he]; exact (skyAfter_file he).trans (by rw [hb]; rfl)⟩
  · refine skyAfter_other hp fun e he => ?_
    rw [← gamePath_sky base name e hslash he]
    exact hne e he

/-- Both shipped sky boxes have their six images. -/
theorem sky_has_images {mod : String → Option Bytes} (hs : SkyShipped mod) : ∀ name ∈ ["desert", "minecraft"],
    ∀ e ∈ skyEndings, mod (name ++ e) ≠ none := by
  intro name hname e he
  have : ∀ name ∈ ["desert", "minecraft"], ∀ e ∈ skyEndings, name ++ e ∈ skyShipped := by decide +kernel
  rw [← Option.isSome_iff_ne_none, hs]
  exact this name hname e he

/-- The images of the program, for the examples. -/
def someSky (f : String) : Option Bytes := if f ∈ skyShipped then some (f.toList.map fun c => UInt8.ofNat c.toNat) else none

theorem shipped_someSky : SkyShipped someSky := by
  intro f; unfold someSky; split <;> simp_all

/-- An empty disk. -/
def emptyFs : FileSys := fun p => if p = [] then some .dir else none

theorem wf_emptyFs : SkyWF emptyFs := ⟨by simp [emptyFs], fun n q h => by simp [emptyFs] at h⟩

theorem free_emptyFs (base : FsPath) : SkyFree emptyFs base := by
  intro p _ bs
  simp only [emptyFs]
  split <;> simp

theorem noDir_emptyFs (name : String) (base : FsPath) : SkyNoDir emptyFs name base := by
  intro e _; simp [emptyFs]

/-- The hypotheses hold for both shipped sky boxes and an empty disk. -/
example : ∀ name ∈ ["desert", "minecraft"], '/' ∉ name.toList ∧ (∀ e ∈ skyEndings, someSky (name ++ e) ≠ none) ∧ SkyWF emptyFs ∧
    SkyFree emptyFs ["redeclipse", "games"] ∧ SkyNoDir emptyFs name ["redeclipse", "games"] := fun name hn =>
  ⟨(by decide +kernel : ∀ name ∈ ["desert", "minecraft"], '/' ∉ name.toList) name hn, sky_has_images shipped_someSky name hn, wf_emptyFs,
    free_emptyFs _, noDir_emptyFs _ _⟩

/-- **C100**: installing again changes nothing, and a second sky box leaves the first complete. -/
theorem C100_again (mod : String → Option Bytes) (name other : String) (base : FsPath) (fs : FileSys)
    (hslash : '/' ∉ name.toList) (hm : ∀ e ∈ skyEndings, mod (name ++ e) ≠ none) (hm' : ∀ e ∈ skyEndings, mod (other ++ e) ≠ none)
    (h : SkyWF fs) (hf : SkyFree fs base) (hn : SkyNoDir fs name base) (hn' : SkyNoDir fs other base) :
    skyInit mod name base (skyInit mod name base fs).1 = skyInit mod name base fs ∧
      SkyComplete mod name base (skyInit mod other base (skyInit mod name base fs).1).1 := by
  have hf1 : SkyFree (skyAfter mod name base fs) base := fun p hp bs => by rw [sky_dir_of_suffix hp]; simp
  have hno : ∀ o, SkyNoDir fs o base → SkyNoDir (skyAfter mod name base fs) o base := by
    intro o ho e he
    by_cases hc : ∃ e' ∈ skyEndings, o ++ e = name ++ e'
    · obtain ⟨e', he', hc⟩ := hc
      rw [hc, skyAfter_file he']
      cases mod (name ++ e') <;> simp
    · rw [skyAfter_other (not_dir_suffix _ _)]
      · exact ho e he
      · rintro e' he' hx
        injection hx with hx
        exact hc ⟨e', he', hx⟩
  have h1 := skyInit_eq h hf hn hm
  have h2 : ∀ o, (∀ e ∈ skyEndings, mod (o ++ e) ≠ none) → SkyNoDir fs o base →
      skyInit mod o base (skyAfter mod name base fs) = (skyAfter mod o base (skyAfter mod name base fs), .ok ()) :=
    fun o ho hd => skyInit_eq (sky_wf h hn) hf1 (hno o hd) ho
  constructor
  · rw [h1, h2 name hm hn]
    congr 1
    funext p
    by_cases hp : p <:+ skyDir base
    · rw [sky_dir_of_suffix hp, sky_dir_of_suffix hp]
    by_cases hc : ∃ e ∈ skyEndings, p = (name ++ e) :: skyDir base
    · obtain ⟨e, he, rfl⟩ := hc
      rw [skyAfter_file he, skyAfter_file he]
    · push Not at hc
      rw [skyAfter_other hp hc]
  · rw [h1, h2 other hm' hn']
    intro e he
    obtain ⟨bs, hb⟩ := Option.ne_none_iff_exists'.1 (hm e he)
    refine ⟨bs, hb, ?_⟩
    rw [gamePath_sky base name e hslash he]
    change skyAfter mod other base (skyAfter mod name base fs) ((name ++ e) :: skyDir base) = some (.file bs)
    by_cases hc : ∃ e' ∈ skyEndings, name ++ e = other ++ e'
    · obtain ⟨e', he', hc⟩ := hc
      rw [hc, skyAfter_file he', ← hc, hb]; rfl
    · push Not at hc
      rw [skyAfter_other (not_dir_suffix _ _), skyAfter_file he, hb]
      · rfl
      · intro e' he' hx
        injection hx with hx
        exact hc e' he' hx

/-- **C100**: when a target path is taken. If something above the target directory is a file, the constructor fails and nothing changes. If
the target directory itself is a file, the constructor succeeds, but no image is there: the file has been replaced by the last image. -/
theorem C100_taken (mod : String → Option Bytes) (name : String) (base : FsPath) (fs : FileSys) (h : SkyWF fs) :
    ((∃ p, p <:+ skyDir base ∧ p ≠ skyDir base ∧ ∃ bs, fs p = some (.file bs)) →
      skyInit mod name base fs = (fs, .error .notADirectory)) ∧
    ((∃ bs, fs (skyDir base) = some (.file bs)) → (∀ e ∈ skyEndings, mod (name ++ e) ≠ none) →
      (skyInit mod name base fs).2 = .ok () ∧
      (∃ bs, mod (name ++ "_up.jpg") = some bs ∧ (skyInit mod name base fs).1 (skyDir base) = some (.file bs)) ∧
      ∀ p, p ≠ skyDir base → (skyInit mod name base fs).1 p = fs p) := by
  constructor
  · rintro ⟨p, hp, hne, bs, hb⟩
    have hnone : fs (skyDir base) = none := by
      by_contra hc
      rw [sky_above h _ hc p hp hne] at hb; cases hb
    unfold skyInit
    rw [if_neg (by simp [FileSys.exists', hnone]), makedirs_blocked h _ ⟨p, hp, hne, bs, hb⟩]
  · rintro ⟨bs, hb⟩ hm
    have key : ∀ (fns : List String) (f : String) (fs : FileSys), (∀ g ∈ fns ++ [f], mod g ≠ none) → (∃ bs, fs (skyDir base) = some (.file bs)) →
        ∃ bs, mod f = some bs ∧ FileSys.copyAll mod (skyDir base) (fns ++ [f]) fs = (fs.put (skyDir base) (.file bs), .ok ()) := by
      intro fns
      induction fns with
      | nil =>
        rintro f fs hm ⟨bs, hb⟩
        obtain ⟨bs', hb'⟩ := Option.ne_none_iff_exists'.1 (hm f (by simp))
        exact ⟨bs', hb', by simp [FileSys.copyAll, FileSys.copyTo, hb', hb]⟩
      | cons g fns ih =>
        rintro f fs hm ⟨bs, hb⟩
        obtain ⟨bs', hb'⟩ := Option.ne_none_iff_exists'.1 (hm g (by simp))
        obtain ⟨bs2, h2, h3⟩ := ih f (fs.put (skyDir base) (.file bs')) (fun x hx => hm x (List.mem_cons_of_mem _ hx))
          ⟨bs', by simp [FileSys.put]⟩
        refine ⟨bs2, h2, ?_⟩
        rw [List.cons_append, FileSys.copyAll]
        simp only [FileSys.copyTo, hb', hb]
        rw [h3]
        congr 1
        funext q
        simp only [FileSys.put]
        split <;> rfl
    have hall : ∀ g ∈ skyFiles name, mod g ≠ none := by
      rw [skyFiles_eq]; intro g hg; obtain ⟨e, he, rfl⟩ := List.mem_map.1 hg; exact hm e he
    obtain ⟨bs', h1, h2⟩ := key [name ++ "_bk.jpg", name ++ "_dn.jpg", name ++ "_ft.jpg", name ++ "_lf.jpg", name ++ "_rt.jpg"]
      (name ++ "_up.jpg") fs hall ⟨bs, hb⟩
    have e : skyInit mod name base fs = (fs.put (skyDir base) (.file bs'), .ok ()) := by
      unfold skyInit
      rw [if_pos (by simp [FileSys.exists', hb])]
      exact h2
    rw [e]
    exact ⟨rfl, ⟨bs', h1, by simp [FileSys.put]⟩, fun p hp => by simp [FileSys.put, hp]⟩

/-- A disk where the target directory is a file, and one where the directory above it is. -/
def takenFs (k : ℕ) : FileSys := fun p =>
  if p = (skyDir []).drop k then some (.file [1]) else if p <:+ (skyDir []).drop (k + 1) then some .dir else none

theorem wf_takenFs : SkyWF (takenFs 0) ∧ SkyWF (takenFs 1) := by
  refine ⟨⟨by simp [takenFs, skyDir], ?_⟩, ⟨by simp [takenFs, skyDir], ?_⟩⟩ <;>
  · intro n q hq
    simp only [takenFs, skyDir, List.drop, List.suffix_cons_iff, List.suffix_nil] at hq ⊢
    by_contra hc
    grind

example : SkyWF (takenFs 0) ∧ SkyWF (takenFs 1) ∧ takenFs 0 (skyDir []) = some (.file [1]) ∧ takenFs 1 ["hxr", "data"] = some (.file [1]) :=
  ⟨wf_takenFs.1, wf_takenFs.2, by decide +kernel, by decide +kernel⟩

/-- **C100**: the plain class `Skybox` has no images: it always fails, and at most the empty directories are made. -/
theorem C100_base (mod : String → Option Bytes) (base : FsPath) (fs : FileSys) (hs : SkyShipped mod) (h : SkyWF fs) :
    (∃ e, (skyInit mod "base" base fs).2 = .error e) ∧
    ∀ p, (¬ p <:+ skyDir base ∨ fs p ≠ none) → (skyInit mod "base" base fs).1 p = fs p := by
  have hb : mod "base_bk.jpg" = none := by
    have : ¬ (mod "base_bk.jpg").isSome := by rw [hs]; decide +kernel
    simpa using this
  have hc : ∀ fs : FileSys, FileSys.copyAll mod (skyDir base) (skyFiles "base") fs = (fs, .error .notFound) := by
    intro fs
    have : skyFiles "base" = "base_bk.jpg" :: (skyFiles "base").tail := by decide +kernel
    rw [this, FileSys.copyAll, hb]
    rfl
  unfold skyInit
  split
  · rw [hc]; exact ⟨⟨_, rfl⟩, fun _ _ => rfl⟩
  · next he =>
    have hd : fs (skyDir base) = none := by simpa [FileSys.exists'] using he
    by_cases hf : SkyFree fs base
    · rw [makedirs_eq h _ hf hd]
      simp only [hc]
      refine ⟨⟨_, rfl⟩, fun p hp => ?_⟩
      simp only [withDirs]
      split
      · next hps =>
        have hp := hp.resolve_left (not_not.2 hps)
        cases hv : fs p with
        | none => exact absurd hv hp
        | some v => cases v with
          | dir => rfl
          | file bs => exact absurd hv (hf p hps bs)
      · rfl
    · unfold SkyFree at hf
      push Not at hf
      obtain ⟨p, hp, bs, hpb⟩ := hf
      rw [makedirs_blocked h _ ⟨p, hp, (fun e => by rw [e, hd] at hpb; cases hpb), bs, hpb⟩]
      exact ⟨⟨_, rfl⟩, fun _ _ => rfl⟩

/-- The full claim fails: the plain class has no images, and a file in the place of the directory is overwritten without an error. -/
theorem C100_installs_false : ¬ C100_installs := by
  intro h
  obtain ⟨e, he⟩ := (C100_base someSky [] emptyFs shipped_someSky wf_emptyFs).1
  have := (h someSky "base" [] emptyFs shipped_someSky (by decide) wf_emptyFs).1
  rw [he] at this
  cases this

end Verif.Props
