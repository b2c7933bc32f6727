import Verif.OldTools
import Verif.Props.Outputs

/-!
C118: the tools `rooms.py` and `vector_test.py`.
-/

namespace Verif.Props
open Verif

/-- Specification: a tool has done its work if it ends without an exception and its outputs are not empty. -/
def Worked (disk : Disk) (a : OldArgs) (r : ToolRun) : Prop :=
  r.2 = .ok () ∧ ∀ p ∈ a.outputs, ∃ b bs, dget (r.1.foldl FileOp.run disk) p = some (b :: bs)

/-- **C118, full statement** (false, see below): given a readable map that is not among the outputs, both tools do their work. -/
def C118_tools : Prop := ∀ (first : MapFile → Except Err Unit) (rest : Disk → Except Err Unit) (disk : Disk) (a : OldArgs) (bs : Bytes) (m : MapFile),
  dget disk a.input = some bs → readMap bs = .ok m → a.input ∉ a.outputs →
    Worked disk a (oldRoomsTool prefabNames first disk a) ∧ Worked disk a (vectorTool magicaNames rest disk a)

theorem opens_at (ps : List (List Char)) (disk : Disk) (q : List Char) :
    dget ((ps.map FileOp.opens).foldl FileOp.run disk) q = if q ∈ ps then some [] else dget disk q := by
  induction ps generalizing disk with
  | nil => simp
  | cons p ps ih =>
    rw [List.map_cons, List.foldl_cons, ih]
    by_cases h : q ∈ ps
    · simp [h]
    · by_cases h' : q = p
      · subst h'; simp [h, FileOp.run, dget_dset]
      · simp [h, h', FileOp.run, dget_dset, Ne.symm h']

/-- A keyword that names a parameter already filled by position raises TypeError, whatever else the call passes. -/
theorem bind_twice (params : List (String × Bool)) (hn : (params.map Prod.fst).Nodup) (pos : ℕ) (kws : List String) (k : String) (hk : k ∈ kws)
    (hp : k ∈ (params.take pos).map Prod.fst) : pyBind params pos kws = .error .type := by
  unfold pyBind
  split_ifs with h1 h2 h3
  · rfl
  · rfl
  · rfl
  · exfalso
    apply h2
    rw [List.any_eq_true]
    refine ⟨k, hk, ?_⟩
    rw [← List.take_append_drop pos params, List.map_append, List.nodup_append] at hn
    simp only [Bool.not_eq_true', List.contains_eq_mem, decide_eq_false_iff_not]
    exact fun h => hn.2.2 k hp k h rfl

/-- **C118, rooms.py**: whatever the arguments, the disk and even the classes in the package, the tool raises. If its input exists, then its output files
are left empty; no other file changes. With the package as it is and a readable input that is not an output, the exception is AttributeError; if all classes were
there and the first room could be placed, it would be TypeError. -/
theorem C118_rooms_partial (prefabs : List String) (first : MapFile → Except Err Unit) (disk : Disk) (a : OldArgs) :
    let r := oldRoomsTool prefabs first disk a
    let D := r.1.foldl FileOp.run disk
    r.2 ≠ .ok () ∧
    (∀ q, dget D q = if dget disk a.input ≠ none ∧ q ∈ a.outputs then some [] else dget disk q) ∧
    ∀ bs m, dget disk a.input = some bs → readMap bs = .ok m → a.input ∉ a.outputs →
      ((∃ c ∈ oldRooms, c ∉ prefabs) → r.2 = .error .attribute) ∧
      ((∀ c ∈ oldRooms, c ∈ prefabs) → r.2 = match first m with | .error e => .error e | .ok () => .error .type) := by
  have hplace : pyBind placeParams 3 ["rooms"] = .error .type := bind_twice _ (by decide) 3 _ "rooms" (by simp) (by simp [placeParams])
  have hmain : pyBind oldParams 0 oldOptions = .ok () := by decide
  intro r D
  refine ⟨?_, fun q => ?_, fun bs m h1 h2 h3 => ?_⟩
  · simp only [r, oldRoomsTool, openArgs, hmain, hplace]
    split
    · simp
    · split
      · simp
      · split
        · simp
        · split <;> simp
  · simp only [D, r, oldRoomsTool, openArgs]
    cases h : dget disk a.input with
    | none => simp
    | some bs => simp [opens_at]
  · have hin : dget ((a.outputs.map FileOp.opens).foldl FileOp.run disk) a.input = some bs := by rw [opens_at, if_neg h3, h1]
    have hp : parseFile ((a.outputs.map FileOp.opens).foldl FileOp.run disk) a.input = .ok m := by simp [parseFile, hin, h2]
    constructor
    · rintro ⟨c, hc, hn⟩
      have : lookups prefabs oldRooms = .error .attribute := by
        unfold lookups
        rw [if_neg]
        intro h
        rw [List.all_eq_true] at h
        exact hn (by simpa using h c hc)
      simp only [r, oldRoomsTool, openArgs, h1, hmain, hp, this]
      simp
    · intro hall
      have : lookups prefabs oldRooms = .ok () := by
        unfold lookups
        rw [if_pos]
        rw [List.all_eq_true]
        intro c hc
        simpa using hall c hc
      simp only [r, oldRoomsTool, openArgs, h1, hmain, hp, this, hplace]
      cases first m <;> simp

/-- The class that is missing. -/
theorem doric_missing : ∀ c ∈ oldRooms, c ∉ prefabNames ↔ c = "DoricTemple" := by decide

/-- **C118, vector_test.py**: with the package as it is, the tool raises AttributeError whenever its input exists, before it reads the input; its outputs are left
empty and no other file changes. -/
theorem C118_vector_partial (rest : Disk → Except Err Unit) (disk : Disk) (a : OldArgs) :
    let r := vectorTool magicaNames rest disk a
    r.2 = (if dget disk a.input = none then .error .systemExit else .error .attribute) ∧
    ∀ q, dget (r.1.foldl FileOp.run disk) q = if dget disk a.input ≠ none ∧ q ∈ a.outputs then some [] else dget disk q := by
  have h1 : pyBind vecParams 0 vecOptions = .ok () := by decide
  have h2 : lookups magicaNames ["castle_large"] = .error .attribute := by decide
  intro r
  simp only [r, vectorTool, openArgs, h1, h2]
  cases h : dget disk a.input with
  | none => simp
  | some bs => simp [opens_at]

/-- **C118**: for the package as it is. -/
theorem C118_rooms_package (first : MapFile → Except Err Unit) (disk : Disk) (a : OldArgs) (bs : Bytes) (m : MapFile)
    (h1 : dget disk a.input = some bs) (h2 : readMap bs = .ok m) (h3 : a.input ∉ a.outputs) : (oldRoomsTool prefabNames first disk a).2 = .error .attribute :=
  ((C118_rooms_partial prefabNames first disk a).2.2 bs m h1 h2 h3).1 ⟨"DoricTemple", by decide, by decide⟩

/-- A map on disk and an output beside it. -/
theorem readable_disk : ∃ (bs : Bytes) (m : MapFile), dget [(['a'], bs)] ['a'] = some bs ∧ readMap bs = .ok m ∧ ['a'] ∉ [['b']] := by
  obtain ⟨bs, -, h⟩ := C19_round_trip (mapOfSize 256) (wf_mapOfSize 256 (by norm_num) (by norm_num))
  obtain ⟨m, hm, -⟩ := h []
  rw [List.append_nil] at hm
  exact ⟨bs, m, by simp [dget], hm, by simp⟩

theorem C118_tools_false : ¬ C118_tools := by
  intro h
  obtain ⟨bs, m, h1, h2, h3⟩ := readable_disk
  have := (h (fun _ => .ok ()) (fun _ => .ok ()) [(['a'], bs)] ⟨['a'], [['b']]⟩ bs m h1 h2 h3).1.1
  exact (C118_rooms_partial prefabNames _ _ _).1 this

/-- When a call binds: not more positional arguments than parameters, keywords only for the rest of them, and a value or default for each. -/
theorem C118_call (params : List (String × Bool)) (pos : ℕ) (kws : List String) :
    (pyBind params pos kws = .ok () ↔ pos ≤ params.length ∧ (∀ k ∈ kws, ∃ b, (k, b) ∈ params.drop pos) ∧
      ∀ n, (n, false) ∈ params.drop pos → n ∈ kws) ∧ (pyBind params pos kws ≠ .ok () → pyBind params pos kws = .error .type) := by
  unfold pyBind
  generalize params.drop pos = d
  constructor
  · split_ifs with h1 h2 h3
    · simp; omega
    · simp at h2 ⊢; grind
    · simp at h3 ⊢; grind
    · simp at h1 h2 h3 ⊢; exact ⟨h1, fun k hk => (by have := h2 k hk; tauto), h3⟩
  · split_ifs <;> simp

/-- A call of `place_rooms` that binds. -/
example : pyBind placeParams 2 ["rooms"] = .ok () ∧ pyBind placeParams 1 ["rooms"] = .error .type := by decide

end Verif.Props
