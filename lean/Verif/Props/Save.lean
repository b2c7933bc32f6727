import Verif.Save
import Verif.Props.Themes
import Verif.Props.Terrain
import Verif.Props.Conf

/-! What is on disk when saving is interrupted (C91). -/

namespace Verif.Props
open Verif Verif.Spec

/-- C91: whenever the program is stopped or raises, the map file holds what it held before the program started, or the whole new map. -/
def C91_atomic : Prop := ∀ (d : Disk) (path : List Char) (conf : List String) (m : MapFile) (bs : Bytes), mpz <:+: path → WFMap m →
  m.write = .ok bs → ∀ k, dget (diskAfter d (saveSteps path conf bs) k) path = dget d path ∨
    dget (diskAfter d (saveSteps path conf bs) k) path = some bs

theorem puts_run (p : List Char) (bs : Bytes) (d : Disk) (c : Bytes) (h : dget d p = some c) :
    dget ((puts p bs).foldl FileOp.run d) p = some (c ++ bs) ∧ ∀ q, q ≠ p → dget ((puts p bs).foldl FileOp.run d) q = dget d q := by
  induction bs generalizing d c with
  | nil => exact ⟨by simpa [puts] using h, fun q _ => rfl⟩
  | cons b bs ih =>
    obtain ⟨h1, h2⟩ := ih (dset d p (c ++ [b])) (c ++ [b]) (by simp [dget_dset])
    have e : (puts p (b :: bs)).foldl FileOp.run d = (puts p bs).foldl FileOp.run (dset d p (c ++ [b])) := by
      simp [puts, FileOp.run, h]
    rw [e]
    refine ⟨by rw [h1]; simp, fun q hq => ?_⟩
    rw [h2 q hq, dget_dset, if_neg hq.symm]

theorem flat_puts (p : List Char) (conf : List String) :
    conf.flatMap (fun s => puts p (strEncode s)) = puts p (conf.flatMap strEncode) := by
  induction conf with
  | nil => rfl
  | cons s l ih => rw [List.flatMap_cons, List.flatMap_cons, ih]; simp [puts]

theorem take_puts (p : List Char) (bs : Bytes) (k : ℕ) : (puts p bs).take k = puts p (bs.take k) := by
  unfold puts; rw [List.map_take]

/-- The four stages of saving. -/
theorem stages (d : Disk) (path : List Char) (hp : mpz <:+: path) (conf : List String) (map : Bytes) (k : ℕ) :
    let d' := diskAfter d (saveSteps path conf map) k
    (∀ q, q ≠ path → q ≠ confName path → dget d' q = dget d q) ∧
    (k = 0 ∧ d' = d ∨
     dget d' path = some [] ∧ (dget d' (confName path) = dget d (confName path) ∨
       ∃ c, c <+: conf.flatMap strEncode ∧ dget d' (confName path) = some c) ∨
     ∃ c, c <+: map ∧ dget d' path = some c ∧ dget d' (confName path) = some (conf.flatMap strEncode)) := by
  have hne := (confName_ne_iff path).2 hp
  simp only [diskAfter, saveSteps, flat_puts]
  generalize conf.flatMap strEncode = cf
  generalize confName path = cp at *
  rcases k with _ | _ | k
  · exact ⟨fun _ _ _ => rfl, .inl ⟨rfl, rfl⟩⟩
  · simp only [zero_add, List.take_succ_cons, List.take_zero, List.foldl_cons, List.foldl_nil, FileOp.run, List.cons_append]
    refine ⟨fun q h1 h2 => by rw [dget_dset, if_neg h1.symm], .inr (.inl ⟨by simp [dget_dset], .inl (by rw [dget_dset, if_neg hne.symm])⟩)⟩
  · simp only [List.cons_append, List.take_succ_cons, List.foldl_cons, FileOp.run]
    rw [List.take_append, List.foldl_append, take_puts]
    have b1 : dget (dset (dset d path []) cp []) cp = some [] := by simp [dget_dset]
    have b2 : dget (dset (dset d path []) cp []) path = some [] := by rw [dget_dset, if_neg hne, dget_dset, if_pos rfl]
    have b3 : ∀ q, q ≠ path → q ≠ cp → dget (dset (dset d path []) cp []) q = dget d q := by
      intro q h1 h2
      rw [dget_dset, if_neg h2.symm, dget_dset, if_neg h1.symm]
    obtain ⟨r1, r2⟩ := puts_run cp (cf.take k) _ _ b1
    generalize hD : (puts cp (cf.take k)).foldl FileOp.run (dset (dset d path []) cp []) = D at *
    have hl : (puts cp cf).length = cf.length := by simp [puts]
    rw [hl]
    by_cases hk : k ≤ cf.length
    · have : k - cf.length = 0 := by omega
      rw [this]
      simp only [List.take_zero, List.foldl_nil]
      refine ⟨fun q h1 h2 => by rw [r2 q h2, b3 q h1 h2], .inr (.inl ⟨by rw [r2 path hne.symm, b2], .inr ⟨cf.take k, List.take_prefix _ _, ?_⟩⟩)⟩
      rw [r1]; simp
    · obtain ⟨j, hj⟩ : ∃ j, k - cf.length = j + 1 := ⟨k - cf.length - 1, by omega⟩
      rw [hj]
      simp only [List.take_succ_cons, List.foldl_cons, FileOp.run]
      rw [take_puts]
      have c1 : dget (dset D path []) path = some [] := by simp [dget_dset]
      obtain ⟨s1, s2⟩ := puts_run path (map.take j) _ _ c1
      refine ⟨fun q h1 h2 => ?_, .inr (.inr ⟨map.take j, List.take_prefix _ _, by rw [s1]; simp, ?_⟩)⟩
      · rw [s2 q h1, dget_dset, if_neg h1.symm, r2 q h2, b3 q h1 h2]
      · rw [s2 cp hne, dget_dset, if_neg hne.symm, r1, List.take_of_length_le (by omega)]
        simp

theorem write_ne_nil (m : MapFile) (h : WFMap m) (bs : Bytes) (hw : m.write = .ok bs) : bs ≠ [] := by
  rintro rfl
  obtain ⟨bs', h1, h2⟩ := C19_round_trip m h
  rw [hw] at h1
  cases h1
  obtain ⟨m', h3, -⟩ := h2 []
  have : ∃ e, readMap [] = .error e := ⟨_, rfl⟩
  obtain ⟨e, he⟩ := this
  rw [List.nil_append, he] at h3
  cases h3

/-- C91, what holds: at whatever point the program is stopped, no file but the map file and its config has changed; and if the map file
can be read as a map, then either nothing has changed at all, or it is the whole new map and its config is complete. So an
interrupted run never leaves a map that is readable but wrong, nor a new map with an old or incomplete config. Missing: the old
map survives; it does not, since the map file is emptied before the generator starts. -/
theorem C91_atomic_partial (d : Disk) (path : List Char) (hp : mpz <:+: path) (conf : List String) (m : MapFile) (hm : WFMap m) (bs : Bytes)
    (hw : m.write = .ok bs) (k : ℕ) :
    (∀ q, q ≠ path → q ≠ confName path → dget (diskAfter d (saveSteps path conf bs) k) q = dget d q) ∧
    ∀ c m', dget (diskAfter d (saveSteps path conf bs) k) path = some c → readMap c = .ok m' →
      diskAfter d (saveSteps path conf bs) k = d ∨
      c = bs ∧ dget (diskAfter d (saveSteps path conf bs) k) (confName path) = some (conf.flatMap strEncode) := by
  obtain ⟨h1, h2⟩ := stages d path hp conf bs k
  refine ⟨h1, fun c m' hc hr => ?_⟩
  have hcut : ∀ c, c <+: bs → c ≠ bs → ∃ e, readMap c = .error e := by
    rintro c ⟨q, hq⟩ hne
    exact C21_truncated m hm bs c q hw hq.symm (by rintro rfl; exact hne (by simpa using hq))
  rcases h2 with ⟨-, h2⟩ | ⟨h2, -⟩ | ⟨c', hp', h2, h3⟩
  · exact .inl h2
  · rw [h2] at hc
    cases hc
    obtain ⟨e, he⟩ := hcut [] (List.nil_prefix) (write_ne_nil m hm bs hw).symm
    rw [he] at hr; cases hr
  · rw [h2] at hc
    cases hc
    refine .inr ⟨?_, h3⟩
    by_contra hne
    obtain ⟨e, he⟩ := hcut _ hp' hne
    rw [he] at hr; cases hr

/-- C91: a run that is not stopped leaves the whole map and the whole config. -/
theorem C91_complete (d : Disk) (path : List Char) (hp : mpz <:+: path) (conf : List String) (map : Bytes) :
    let d' := diskAfter d (saveSteps path conf map) (saveSteps path conf map).length
    dget d' path = some map ∧ dget d' (confName path) = some (conf.flatMap strEncode) := by
  have hne := (confName_ne_iff path).2 hp
  simp only [diskAfter, List.take_length, saveSteps, flat_puts, List.cons_append, List.foldl_cons, List.foldl_append, FileOp.run]
  have b1 : dget (dset (dset d path []) (confName path) []) (confName path) = some [] := by simp [dget_dset]
  obtain ⟨r1, r2⟩ := puts_run (confName path) (conf.flatMap strEncode) _ _ b1
  generalize (puts (confName path) (conf.flatMap strEncode)).foldl FileOp.run _ = D at *
  obtain ⟨s1, s2⟩ := puts_run path map (dset D path []) [] (by simp [dget_dset])
  exact ⟨by rw [s1]; simp, by rw [s2 _ hne, dget_dset, if_neg hne.symm, r1]; simp⟩

/-- The text of the config is what the game reads in C90. -/
theorem C91_config_text (str : PyNum → String) (m : TexMan) (author mapName : String) (extra : List String) :
    String.join (confWrites str m author mapName extra) =
      m.emitConf str author mapName ++ String.join (extra.map fun l => l ++ "\n") := by
  have key : ∀ (l : List String) (a : String), l.foldl (fun r s => r ++ s) a = a ++ String.join l := by
    intro l
    induction l with
    | nil => intro a; simp [String.join]
    | cons x l ih => intro a; simp only [List.foldl_cons, String.join]; rw [ih, ih ("" ++ x)]; simp [String.append_assoc]
  have happ : ∀ a b : List String, String.join (a ++ b) = String.join a ++ String.join b := by
    intro a b
    conv_lhs => rw [String.join, List.foldl_append, key]
    rfl
  have hcons : ∀ (x : String) (l : List String), String.join (x :: l) = x ++ String.join l := by
    intro x l
    conv_lhs => rw [String.join, List.foldl_cons, key]
    simp
  rw [confWrites, happ, hcons, TexMan.emitConf]

theorem strEncode_append (a b : String) : strEncode (a ++ b) = strEncode a ++ strEncode b := by
  simp [strEncode, String.toUTF8]

theorem strEncode_join (l : List String) : strEncode (String.join l) = l.flatMap strEncode := by
  have key : ∀ (l : List String) (a : String), strEncode (l.foldl (fun r s => r ++ s) a) = strEncode a ++ l.flatMap strEncode := by
    intro l
    induction l with
    | nil => intro a; simp
    | cons x l ih => intro a; simp [ih, strEncode_append]
  have := key l ""
  have e : strEncode "" = [] := by decide +kernel
  rw [e, List.nil_append] at this
  exact this

/-- C91 for a run of the room generator: whenever it is stopped, if the map file can then be read as a map, either nothing has changed, or the
map is the one of the finished run, the config file is complete, and the game that reads both sees every voxel of every room inside
the world in the colour of the room. -/
theorem C91_run (str : PyNum → String) (hw : StrWord str) (hue : V → ℤ × ℤ × ℤ) (files : Model → VoxFile) (a : RunArgs) (base : MapFile) (n : ℕ)
    (ok : RunOk str hue files a base n) (j : ℕ) (t t' : Tape) (res : RunResult)
    (hrun : a.main str hue files base j t t' = some (.ok res)) (fl : List String) :
    ∃ m1 bs, res.saved = .ok m1 ∧ m1.write = .ok bs ∧
      ∀ (d : Disk) (path : List Char), mpz <:+: path → ∀ k,
        let text := confText str res.world.2 "Python" "test" (updateFlavours [] fl).1
        let d' := diskAfter d (saveSteps path (confWrites str res.world.2 "Python" "test" (updateFlavours [] fl).1) bs) k
        (∀ q, q ≠ path → q ≠ confName path → dget d' q = dget d q) ∧
        ∀ c m', dget d' path = some c → readMap c = .ok m' →
          d' = d ∨ (dget d' (confName path) = some (strEncode text) ∧
            ∀ r ∈ res.upm.rooms, ∀ v ∈ (files r.cls).voxels, ∃ c pal p, lastColour (files r.cls).voxels (voxPt v) = some c ∧
              (files r.cls).palette[c]? = some pal ∧ modelPoint 0 0 r.pos r.ori (voxPt v) = [p] ∧
              ∀ x y z : ℕ, x < 2 ^ n → y < 2 ^ n → z < 2 ^ n → key p = ((x : ℚ), (y : ℚ), (z : ℚ)) →
                GameShows str text.toList n m' x y z (shownBytes r.cls r.ori (pal.1, pal.2.1, pal.2.2.1))) := by
  obtain ⟨m1, bs, m2, o1, o2, o3, -, -, -, -, -, -, -, hcut⟩ := C87_saved_partial str hue files a base n ok j t t' res hrun
  obtain ⟨m1', bs', m2', q1, q2, q3, q4⟩ := C90_run str hw hue files a base n ok j t t' res hrun fl
  rw [o1] at q1; cases q1
  rw [o2] at q2; cases q2
  rw [o3] at q3; cases q3
  refine ⟨m1, bs, o1, o2, fun d path hp k => ?_⟩
  obtain ⟨h1, h2⟩ := stages d path hp (confWrites str res.world.2 "Python" "test" (updateFlavours [] fl).1) bs k
  refine ⟨h1, fun c m' hc hr => ?_⟩
  have hnil : bs ≠ [] := by
    rintro rfl
    have : ∃ e, readMap [] = .error e := ⟨_, rfl⟩
    obtain ⟨e, he⟩ := this
    rw [he] at o3; cases o3
  rcases h2 with ⟨-, h2⟩ | ⟨h2, -⟩ | ⟨c', ⟨q, hq⟩, h2, h3⟩
  · exact .inl h2
  · rw [h2] at hc
    cases hc
    obtain ⟨e, he⟩ := hcut [] bs rfl hnil
    rw [he] at hr; cases hr
  · rw [h2] at hc
    cases hc
    have : q = [] := by
      by_contra hne
      obtain ⟨e, he⟩ := hcut _ q hq.symm hne
      rw [he] at hr; cases hr
    subst this
    rw [List.append_nil] at hq
    subst hq
    rw [o3] at hr
    cases hr
    refine .inr ⟨?_, q4⟩
    rw [h3, ← strEncode_join, C91_config_text]
    rfl

/-- The map file is emptied before anything else happens. -/
theorem C91_atomic_false : ¬ C91_atomic := by
  intro h
  obtain ⟨bs, hw, -⟩ := C19_round_trip _ (wf_mapOfSize 256 (by norm_num) (by norm_num))
  have hp : mpz <:+: ("a.mpz".toList) := by decide
  rcases h [("a.mpz".toList, [1])] "a.mpz".toList [] _ bs hp (wf_mapOfSize 256 (by norm_num) (by norm_num)) hw 1 with h | h
  · revert h
    simp only [diskAfter, saveSteps, List.take_succ_cons, List.take_zero, List.foldl_cons, List.foldl_nil, FileOp.run, List.cons_append]
    decide
  · have : dget (diskAfter [("a.mpz".toList, [1])] (saveSteps "a.mpz".toList [] bs) 1) "a.mpz".toList = some [] := by
      simp only [diskAfter, saveSteps, List.take_succ_cons, List.take_zero, List.foldl_cons, List.foldl_nil, FileOp.run, List.cons_append]
      decide
    rw [this] at h
    exact write_ne_nil _ (wf_mapOfSize 256 (by norm_num) (by norm_num)) bs hw (Option.some.inj h).symm

/-- A map and a path as in the theorems. -/
example : WFMap (mapOfSize 256) ∧ mpz <:+: ("out/test.mpz".toList) := ⟨wf_mapOfSize 256 (by norm_num) (by norm_num), by decide⟩

end Verif.Props
