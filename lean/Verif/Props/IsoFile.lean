import Verif.IsoFile
import Verif.ResumeLemmas
import Verif.Props.Iso
import Verif.Props.Save

/-! Property theorems C130: what the `iso` tool leaves on the disk when it is stopped, raises, or ends. -/

namespace Verif.Props
open Verif Verif.Spec P

/-- **C130.** Whatever part of its output the tool has written, also when writing raises: the part is either not a map file at all,
or it is read as the map of the input (with the number of entities corrected). -/
theorem C130_left (file : Bytes) (m : MapFile) (hr : readMap file = .ok m) (hn : NoRepeats m) (p : Bytes) (hp : p <+: m.write.out)
    (m' : MapFile) (hm' : readMap p = .ok m') : m' = counted m := by
  obtain ⟨r, hr⟩ := readMap_parts hr
  obtain ⟨n, hn1, hn2⟩ := hn
  obtain ⟨t, ht, -⟩ := res_map hr (by
    intro nv h
    rw [hn1] at h
    simp only [Option.some.injEq, Val.int.injEq] at h
    rw [← h, hn2])
  obtain ⟨r', hr'⟩ := readMap_parts hm'
  obtain ⟨b, hb, hbr⟩ := local_readMapAux _ _ _ _ hr'
  obtain ⟨q, hq⟩ := hp
  have h1 := ht []
  have h2 := hbr (r' ++ q ++ t)
  rw [← List.append_assoc, ← List.append_assoc, ← hb, hq] at h2
  rw [List.append_nil] at h1
  have k1 := le_readMapAux (le_max_left (file.length + 1) (p.length + 1)) _ _ h1
  have k2 := le_readMapAux (le_max_right (file.length + 1) (p.length + 1)) _ _ h2
  rw [k1] at k2
  simp only [Except.ok.injEq, Prod.mk.injEq] at k2
  exact k2.1.symm

/-- The disk after some steps of a run: nothing has changed, or the output holds a beginning of what is written. -/
theorem isoSteps_stages (disk : Disk) (input output : List Char) (m : MapFile) (h : parseFile disk input = .ok m) (k : ℕ) :
    let d := diskAfter disk (isoSteps disk input output).1 k
    (∀ p, p ≠ output → dget d p = dget disk p) ∧ (d = disk ∨ dget d output = some (m.write.out.take (k - 1))) := by
  simp only [isoSteps, h]
  cases k with
  | zero => exact ⟨fun _ _ => rfl, Or.inl rfl⟩
  | succ k =>
    simp only [diskAfter, List.take_succ_cons, List.foldl_cons, FileOp.run, take_puts]
    obtain ⟨h1, h2⟩ := puts_run output (m.write.out.take k) (dset disk output []) [] (by simp [dget_dset])
    refine ⟨fun p hp => ?_, Or.inr ?_⟩
    · rw [h2 p hp, dget_dset, if_neg (Ne.symm hp)]
    · simpa using h1

theorem parseFile_eq {d d' : Disk} {p : List Char} (h : dget d p = dget d' p) : parseFile d p = parseFile d' p := by
  unfold parseFile; rw [h]

theorem parseFile_file {d : Disk} {p : List Char} {m : MapFile} (h : parseFile d p = .ok m) : ∃ bs, dget d p = some bs ∧ readMap bs = .ok m := by
  unfold parseFile at h
  split at h
  · simp at h
  · next bs hb => exact ⟨bs, hb, h⟩

/-- **C130, full statement** (false, see below): at every moment of a run on a readable map no other file has changed, the output
is as before or is no readable map or is the map of the input, and the map can be read from one of the two files. -/
def C130_safe : Prop := ∀ (disk : Disk) (input output : List Char) (m : MapFile), parseFile disk input = .ok m → ∀ k : ℕ,
  let d := diskAfter disk (isoSteps disk input output).1 k
  (∀ p, p ≠ output → dget d p = dget disk p) ∧
  (∀ m', parseFile d output = .ok m' → d = disk ∨ m' = counted m) ∧
  (parseFile d input = .ok m ∨ parseFile d output = .ok (counted m))

/-- **C130, the part that holds**, for maps without repeated variable names: the first two claims at every moment and however the run
ends; the third if the two files are different, or when the run has ended without an exception. Missing: repeated names
(`C130_safe_false`), and runs in place that are stopped (`C130_in_place`). -/
theorem C130_safe_partial (disk : Disk) (input output : List Char) (m : MapFile) (h : parseFile disk input = .ok m) (hn : NoRepeats m) (k : ℕ) :
    let run := isoSteps disk input output
    let d := diskAfter disk run.1 k
    (∀ p, p ≠ output → dget d p = dget disk p) ∧
    (∀ m', parseFile d output = .ok m' → d = disk ∨ m' = counted m) ∧
    (input ≠ output → parseFile d input = .ok m) ∧
    (run.2 = none → run.1.length ≤ k → parseFile d output = .ok (counted m)) := by
  obtain ⟨bs, hbs, hr⟩ := parseFile_file h
  obtain ⟨h1, h2⟩ := isoSteps_stages disk input output m h k
  refine ⟨h1, ?_, ?_, ?_⟩
  · intro m' hm'
    rcases h2 with h2 | h2
    · exact Or.inl h2
    · right
      obtain ⟨b, hb, hrb⟩ := parseFile_file hm'
      rw [h2, Option.some.injEq] at hb
      subst hb
      exact C130_left bs m hr hn _ (List.take_prefix _ _) m' hrb
  · intro hne
    rw [parseFile_eq (h1 input hne), h]
  · intro he hk
    simp only [isoSteps, h] at he hk
    simp only [List.length_cons] at hk
    have hl : m.write.out.length + 1 ≤ k := by simpa [puts] using hk
    have hd : dget (diskAfter disk (isoSteps disk input output).1 k) output = some m.write.out := by
      simp only [isoSteps, h]
      rw [diskAfter, List.take_of_length_le (by simpa [puts] using hl)]
      simp only [List.foldl_cons, FileOp.run]
      have := (puts_run output m.write.out (dset disk output []) [] (by simp [dget_dset])).1
      simpa using this
    have hw : m.write = .ok m.write.out := by
      cases hx : m.write; rw [hx] at he; simp_all [W.ok]
    unfold parseFile
    rw [hd]
    simp only
    obtain ⟨r, hr'⟩ := readMap_parts hr
    obtain ⟨n, hn1, hn2⟩ := hn
    obtain ⟨t, ht, he'⟩ := res_map hr' (by
      intro nv h
      rw [hn1] at h
      simp only [Option.some.injEq, Val.int.injEq] at h
      rw [← h, hn2])
    rw [he' he, List.append_nil] at ht
    obtain ⟨ws, ne, pvs, lm, bm, nv, gv, rev, gi, nvars, hok⟩ := readMapAux_ok hr'
    have hnv : n = nvars := by
      rw [hok.head] at hn1
      simpa [header, dget] using hn1.symm
    subst hnv
    obtain ⟨bs', w', r'⟩ := writeMap_of (hok.wf hw hn2).1
    rw [hw, W.ok_inj] at w'
    have := readMap_of_reads r' le_rfl []
    rw [List.append_nil, ← w', (hok.wf hw hn2).2] at this
    exact this

/-- **C130.** A run whose input cannot be read changes nothing at all. -/
theorem C130_untouched (disk : Disk) (input output : List Char) (e : Err) (h : parseFile disk input = .error e) (k : ℕ) :
    diskAfter disk (isoSteps disk input output).1 k = disk ∧ (isoSteps disk input output).2 = some e := by
  simp [isoSteps, h, diskAfter]

/-- **C130.** The tool on one and the same file: if it is stopped right after the output was opened, the map is lost. This is so for
every map. -/
theorem C130_in_place (disk : Disk) (path : List Char) (m : MapFile) (h : parseFile disk path = .ok m) :
    ∃ e, parseFile (diskAfter disk (isoSteps disk path path).1 1) path = .error e := by
  refine ⟨.struct, ?_⟩
  have hd : dget (diskAfter disk (isoSteps disk path path).1 1) path = some [] := by
    simp only [isoSteps, h, diskAfter, List.take_succ_cons, List.take_zero, List.foldl_cons, List.foldl_nil, FileOp.run, dget_dset, if_true]
  unfold parseFile
  rw [hd]
  rfl

/-- The file of `smallMap` on a disk. -/
def smallDisk : Disk := [("a.mpz".toList, smallMap.write.out)]

theorem smallDisk_read : ∃ m, parseFile smallDisk "a.mpz".toList = .ok m ∧ NoRepeats m := by
  have h : (match readMap smallMap.write.out with
    | .ok m => dget m.meta' "numvars" == some (.int m.mapVars.length)
    | .error _ => false) = true := by decide +kernel
  cases hr : readMap smallMap.write.out with
  | error e => rw [hr] at h; simp at h
  | ok m =>
    rw [hr] at h
    simp only [beq_iff_eq] at h
    exact ⟨m, by simpa [parseFile, smallDisk, dget] using hr, _, h, by simp⟩

/-- The hypotheses of the theorems are met. -/
example : ∃ m, parseFile smallDisk "a.mpz".toList = .ok m ∧ NoRepeats m ∧
    ∃ e, parseFile (diskAfter smallDisk (isoSteps smallDisk "a.mpz".toList "a.mpz".toList).1 1) "a.mpz".toList = .error e := by
  obtain ⟨m, h1, h2⟩ := smallDisk_read
  exact ⟨m, h1, h2, C130_in_place _ _ m h1⟩

/-- A file whose first cube has the unknown tag 5. -/
def tagFile : Bytes := (plainMap 0 [] []).write.out ++ [5]

/-- Both sides of `C130_left` occur: writing the map of `tagFile` raises, and what is left is nevertheless read as that map. -/
example : ∃ m, readMap tagFile = .ok m ∧ NoRepeats m ∧ m.write.err ≠ none ∧ readMap m.write.out = .ok (counted m) := by
  have h : (match readMap tagFile with
    | .ok m => (dget m.meta' "numvars" == some (.int m.mapVars.length)) && !m.write.err.isNone && (readMap m.write.out).toOption.isSome
    | .error _ => false) = true := by decide +kernel
  cases hr : readMap tagFile with
  | error e => rw [hr] at h; simp at h
  | ok m =>
    rw [hr] at h
    simp only [Bool.and_eq_true, beq_iff_eq, Bool.not_eq_true', Option.isNone_eq_false_iff] at h
    obtain ⟨⟨h1, h2⟩, h3⟩ := h
    have hn : NoRepeats m := ⟨_, h1, by simp⟩
    refine ⟨m, rfl, hn, fun h => by rw [h] at h2; simp at h2, ?_⟩
    cases hx : readMap m.write.out with
    | error e => rw [hx] at h3; simp [Except.toOption] at h3
    | ok m' => rw [C130_left _ m hr hn _ (List.prefix_refl _) m' hx]

/-- A map with two variables of the same name and thirteen recent textures. -/
def twiceMap : MapFile := { plainMap 2 [(.bytes [97], .int 1), (.bytes [97], .int 2)] (List.replicate 8 newcube) with texmru := List.replicate 13 0 }

/-- **C130 is false**: of two variables of the same name one is kept, but the header still announces two; the tool ends without an
exception, and its output is read as a map with another variable and without the recent textures. (In place, `C130_in_place` is another reason.) -/
theorem C130_safe_false : ¬ C130_safe := by
  intro h
  have hd : (match readMap twiceMap.write.out with
    | .ok m => decide (m.texmru.length = 13) && (match readMap m.write.out with
      | .ok m' => decide (m'.texmru.length = 0)
      | .error _ => false)
    | .error _ => false) = true := by decide +kernel
  cases hr : readMap twiceMap.write.out with
  | error e => rw [hr] at hd; simp at hd
  | ok m =>
    rw [hr] at hd
    simp only [Bool.and_eq_true, decide_eq_true_eq] at hd
    obtain ⟨h13, hd⟩ := hd
    cases hr' : readMap m.write.out with
    | error e => rw [hr'] at hd; simp at hd
    | ok m' =>
      rw [hr'] at hd
      simp only [decide_eq_true_eq] at hd
      have hp : parseFile [(['a'], twiceMap.write.out)] ['a'] = .ok m := by simpa [parseFile, dget] using hr
      obtain ⟨-, h2, -⟩ := h [(['a'], twiceMap.write.out)] ['a'] ['b'] m hp (m.write.out.length + 1)
      have hb : dget (diskAfter [(['a'], twiceMap.write.out)] (isoSteps [(['a'], twiceMap.write.out)] ['a'] ['b']).1 (m.write.out.length + 1)) ['b'] =
          some m.write.out := by
        rcases (isoSteps_stages [(['a'], twiceMap.write.out)] ['a'] ['b'] m hp (m.write.out.length + 1)).2 with h | h
        · exfalso
          simp only [isoSteps, hp, diskAfter, List.take_succ_cons, List.foldl_cons, FileOp.run, take_puts] at h
          have := (puts_run ['b'] (m.write.out.take m.write.out.length) (dset [(['a'], twiceMap.write.out)] ['b'] []) [] (by simp [dget_dset])).1
          rw [h] at this
          simp [dget] at this
        · simpa using h
      rcases h2 m' (by simp only [parseFile, hb, hr']) with h | h
      · rw [h] at hb
        simp [dget] at hb
      · rw [h] at hd
        simp only [counted] at hd
        omega

end Verif.Props
