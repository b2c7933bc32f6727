import Verif.CubeLemmas

/-! The reader of maps: it only looks at the bytes it consumes (`Local`), more fuel never changes a result
(`Le`), and fuel never runs out (`NR`). -/

namespace Verif
open P Verif.Spec

/-! ### Locality -/

theorem local_ite {α : Type} {c : Prop} [Decidable c] {p q : P α} (hp : Local p) (hq : Local q) :
    Local (if c then p else q) := by split <;> assumption

theorem local_readSurf (m : ℤ) (i : ℕ) : Local (readSurf m i) := by
  unfold readSurf
  refine local_ite (Local.pure _) (local_readChar.bind fun _ => local_readChar.bind fun _ =>
    local_readChar.bind fun _ => local_readChar.bind fun _ => ?_)
  exact local_ite (Local.pure _) (Local.fail _)

theorem local_readSurfs (m : ℤ) (l : List ℕ) : Local (readSurfs m l) := by
  induction l with
  | nil => exact Local.pure _
  | cons i r ih => exact (local_readSurf m i).bind fun _ => ih.bind fun _ => Local.pure _

theorem local_loadRest (d : CubeData) : Local (loadRest d) := by
  unfold loadRest
  refine (Local.times local_readUshort 6).bind fun _ => ?_
  refine Local.bind (local_ite (Local.map _ local_readUshort) (Local.pure _)) fun _ => ?_
  refine Local.bind (local_ite local_readChar (Local.pure _)) fun _ => ?_
  exact local_ite (local_readChar.bind fun _ => local_readChar.bind fun _ =>
    (local_readSurfs _ _).bind fun _ => Local.pure _) (Local.pure _)

theorem local_loadLoop {lc : Bool → P (Bool × Cube)} (h : ∀ b, Local (lc b)) (k : ℕ) (f : Bool) :
    Local (loadLoop lc k f) := by
  induction k generalizing f with
  | zero => exact Local.pure _
  | succ k ih =>
    exact (h f).bind fun ⟨f', c⟩ => local_ite (Local.pure _) ((ih f').bind fun _ => Local.pure _)

theorem local_loadc (fuel : ℕ) (f : Bool) : Local (loadc fuel f) := by
  induction fuel generalizing f with
  | zero => exact Local.fail _
  | succ n ih =>
    rw [loadc]
    refine local_readChar.bind fun o => ?_
    refine local_ite ((local_loadLoop ih 8 f).bind fun _ => Local.pure _) ?_
    refine local_ite ((local_loadRest _).bind fun _ => Local.pure _) ?_
    refine local_ite ((local_loadRest _).bind fun _ => Local.pure _) ?_
    refine local_ite ((Local.times local_readChar 12).bind fun _ =>
      (local_loadRest _).bind fun _ => Local.pure _) ?_
    exact local_ite ((local_loadRest _).bind fun _ => Local.pure _) (Local.pure _)

theorem local_readEnt : Local readEnt := by
  unfold readEnt
  refine local_readFloat.bind fun _ => local_readFloat.bind fun _ => local_readFloat.bind fun _ =>
    local_readChar.bind fun _ => local_readChar.bind fun _ => local_readChar.bind fun _ =>
    local_readChar.bind fun _ => local_readInt.bind fun _ => (Local.times local_readInt _).bind fun _ =>
    local_readInt.bind fun _ => (Local.times local_readInt _).bind fun _ => (Local.lift _).bind fun _ => ?_
  exact Local.lift _

theorem local_readShaderParams (fl : ℤ) (n : ℕ) : Local (readShaderParams fl n) := by
  induction n with
  | zero => exact Local.pure _
  | succ n ih =>
    rw [readShaderParams]
    refine local_readUshort.bind fun _ => local_ite (Local.fail _) ((local_readStr _ _).bind fun _ =>
      (Local.times local_readFloat 4).bind fun _ => ?_)
    exact local_ite (local_readInt.bind fun _ => local_readInt.bind fun _ => ih) ih

theorem local_onBit {α : Type} (c : ℤ) (i : ℕ) {p : P α} (h : Local p) : Local (onBit c i p) :=
  local_ite (Local.map _ h) (Local.pure _)

theorem local_loadVSlot (c : ℤ) : Local (loadVSlot c) := by
  unfold loadVSlot
  refine (local_onBit _ _ (local_readUshort.bind fun _ => local_readShaderParams _ _)).bind fun _ =>
    (local_onBit _ _ local_readFloat).bind fun _ => (local_onBit _ _ local_readInt).bind fun _ =>
    (local_onBit _ _ (Local.times local_readInt 2)).bind fun _ =>
    (local_onBit _ _ (Local.times local_readInt 2)).bind fun _ => (local_onBit _ _ local_readInt).bind fun _ =>
    (local_onBit _ _ (Local.times local_readFloat 2)).bind fun _ =>
    (local_onBit _ _ (Local.times local_readFloat 3)).bind fun _ =>
    (local_onBit _ _ (Local.times local_readInt 2)).bind fun _ => local_onBit _ _ local_readFloat

theorem local_loadVSlots (fuel : ℕ) (num : ℤ) (n : ℕ) : Local (loadVSlots fuel num n) := by
  induction fuel generalizing num n with
  | zero => exact local_ite (Local.pure _) (Local.fail _)
  | succ fuel ih =>
    rw [loadVSlots]
    refine local_ite (Local.pure _) (local_readInt.bind fun _ => local_ite ?_ ?_)
    · exact (ih _ _).bind fun ⟨_, _⟩ => Local.pure _
    · exact local_readInt.bind fun _ => (local_loadVSlot _).bind fun _ => (ih _ _).bind fun ⟨_, _⟩ => Local.pure _

theorem local_readVar : Local readVar := by
  unfold readVar
  refine local_readInt.bind fun _ => (local_readStr _ _).bind fun _ => local_readInt.bind fun _ => ?_
  refine local_ite (local_readInt.bind fun _ => (local_readStr _ _).bind fun _ => Local.pure _) ?_
  refine local_ite (local_readFloat.bind fun _ => Local.pure _) ?_
  exact local_ite (local_readInt.bind fun _ => Local.pure _) (Local.fail _)

theorem local_readVars (n : ℕ) (acc : List (Val × Val)) : Local (readVars n acc) := by
  induction n generalizing acc with
  | zero => exact Local.pure _
  | succ n ih => exact local_readVar.bind fun ⟨_, _⟩ => ih _

theorem local_readMapAux (fuel : ℕ) : Local (readMapAux fuel) := by
  unfold readMapAux
  refine (local_readStr _ _).bind fun _ => local_ite (Local.fail _) ?_
  refine local_readInt.bind fun _ => local_readInt.bind fun _ => local_readInt.bind fun _ =>
    local_readInt.bind fun _ => local_readInt.bind fun _ => local_readInt.bind fun _ =>
    local_readInt.bind fun _ => local_readInt.bind fun _ => local_readInt.bind fun _ =>
    local_readInt.bind fun _ => (local_readStr _ _).bind fun _ => local_readInt.bind fun _ =>
    (local_readVars _ _).bind fun _ => local_readUshort.bind fun _ =>
    (Local.times local_readUshort _).bind fun _ => (Local.times local_readEnt _).bind fun _ =>
    (local_loadVSlots _ _ _).bind fun ⟨_, _⟩ => (local_loadLoop (local_loadc _) _ _).bind fun _ =>
    (Local.lift _).bind fun _ => Local.pure _

/-! ### More fuel -/

/-- `q` agrees with `p` wherever `p` does not run out of fuel. -/
def P.Le {α : Type} (p q : P α) : Prop := ∀ s, p s ≠ .error .recursion → q s = p s

theorem P.Le.rfl {α : Type} {p : P α} : P.Le p p := fun _ _ => _root_.rfl

theorem P.Le.bind {α β : Type} {p q : P α} {f g : α → P β} (h : P.Le p q) (hf : ∀ a, P.Le (f a) (g a)) :
    P.Le (p >>= f) (q >>= g) := by
  intro s hs
  rw [bind_apply] at hs ⊢
  rw [bind_apply]
  cases hp : p s with
  | error e =>
    rw [hp] at hs
    rw [h s (by rw [hp]; exact fun h' => hs (by simpa using h')), hp]
  | ok x =>
    obtain ⟨a, r⟩ := x
    rw [hp] at hs
    rw [h s (by rw [hp]; simp), hp]
    exact hf a r hs

theorem P.Le.ite {α : Type} {c : Prop} [Decidable c] {p q p' q' : P α} (h : P.Le p p') (h' : P.Le q q') :
    P.Le (if c then p else q) (if c then p' else q') := by split <;> assumption

theorem le_loadLoop {lc lc' : Bool → P (Bool × Cube)} (h : ∀ b, P.Le (lc b) (lc' b)) (k : ℕ) (f : Bool) :
    P.Le (loadLoop lc k f) (loadLoop lc' k f) := by
  induction k generalizing f with
  | zero => exact P.Le.rfl
  | succ k ih => exact (h f).bind fun ⟨f', c⟩ => P.Le.ite P.Le.rfl ((ih f').bind fun _ => P.Le.rfl)

theorem le_loadc {m n : ℕ} (h : m ≤ n) (f : Bool) : P.Le (loadc m f) (loadc n f) := by
  induction m generalizing n f with
  | zero => intro s hs; simp [loadc] at hs
  | succ m ih =>
    obtain ⟨n, rfl⟩ : ∃ k, n = k + 1 := ⟨n - 1, by omega⟩
    rw [loadc, loadc]
    refine P.Le.rfl.bind fun o => P.Le.ite ?_ P.Le.rfl
    exact (le_loadLoop (fun b => ih (by omega) b) 8 f).bind fun _ => P.Le.rfl

theorem le_loadVSlots {m n : ℕ} (h : m ≤ n) (num : ℤ) (k : ℕ) : P.Le (loadVSlots m num k) (loadVSlots n num k) := by
  induction m generalizing n num k with
  | zero =>
    cases n with
    | zero => exact P.Le.rfl
    | succ n =>
      rw [loadVSlots, loadVSlots]
      by_cases hn : num ≤ 0
      · rw [if_pos hn, if_pos hn]; exact P.Le.rfl
      · rw [if_neg hn]; intro s hs; simp at hs
  | succ m ih =>
    obtain ⟨n, rfl⟩ : ∃ k, n = k + 1 := ⟨n - 1, by omega⟩
    rw [loadVSlots, loadVSlots]
    refine P.Le.ite P.Le.rfl (P.Le.rfl.bind fun c => P.Le.ite ?_ ?_)
    · exact (ih (by omega) _ _).bind fun ⟨_, _⟩ => P.Le.rfl
    · exact P.Le.rfl.bind fun _ => P.Le.rfl.bind fun _ => (ih (by omega) _ _).bind fun ⟨_, _⟩ => P.Le.rfl

theorem ext_readMapAux {m n : ℕ} (h : m ≤ n) : P.Le (readMapAux m) (readMapAux n) := by
  unfold readMapAux
  refine P.Le.rfl.bind fun _ => P.Le.ite P.Le.rfl ?_
  refine P.Le.rfl.bind fun _ => P.Le.rfl.bind fun _ => P.Le.rfl.bind fun _ => P.Le.rfl.bind fun _ =>
    P.Le.rfl.bind fun _ => P.Le.rfl.bind fun _ => P.Le.rfl.bind fun _ => P.Le.rfl.bind fun _ =>
    P.Le.rfl.bind fun _ => P.Le.rfl.bind fun _ => P.Le.rfl.bind fun _ => P.Le.rfl.bind fun _ =>
    P.Le.rfl.bind fun _ => P.Le.rfl.bind fun _ => P.Le.rfl.bind fun _ => P.Le.rfl.bind fun _ =>
    (le_loadVSlots h _ _).bind fun ⟨_, _⟩ => (le_loadLoop (le_loadc h) _ _).bind fun _ => P.Le.rfl

theorem le_readMapAux {m n : ℕ} (h : m ≤ n) (s : Bytes) (x : MapFile × Bytes) (hs : readMapAux m s = .ok x) :
    readMapAux n s = .ok x := by
  rw [ext_readMapAux h s (by rw [hs]; simp), hs]

/-! ### Fuel never runs out -/

/-- On inputs of at most `n` bytes `p` does not raise RecursionError. -/
def P.NR {α : Type} (n : ℕ) (p : P α) : Prop := ∀ s : Bytes, s.length ≤ n → p s ≠ .error .recursion

theorem P.NR.bind {α β : Type} {n : ℕ} {p : P α} {f : α → P β} (hl : Local p) (h : P.NR n p)
    (hf : ∀ a, P.NR n (f a)) : P.NR n (p >>= f) := by
  intro s hs
  rw [bind_apply]
  cases hp : p s with
  | error e =>
    intro h'
    exact h s hs (by rw [hp]; exact (by simpa using h'))
  | ok x =>
    obtain ⟨a, r⟩ := x
    obtain ⟨b, rfl, -⟩ := hl _ _ _ hp
    exact hf a r (by rw [List.length_append] at hs; omega)

theorem P.NR.pure {α : Type} (n : ℕ) (a : α) : P.NR n (Pure.pure a : P α) := by
  intro s _ h; simp at h
theorem P.NR.fail {α : Type} (n : ℕ) {e : Err} (he : e ≠ .recursion) : P.NR n (P.fail e : P α) := by
  intro s _ h; simp at h; exact he h
theorem P.NR.ite {α : Type} {n : ℕ} {c : Prop} [Decidable c] {p q : P α} (hp : P.NR n p) (hq : P.NR n q) :
    P.NR n (if c then p else q) := by split <;> assumption
theorem P.NR.map {α β : Type} {n : ℕ} {p : P α} (f : α → β) (h : P.NR n p) : P.NR n (f <$> p) := by
  intro s hs
  rw [map_apply]
  cases hp : p s with
  | error e => simp only; intro h'; exact h s hs (by rw [hp]; exact (by simpa using h'))
  | ok x => simp
theorem P.NR.bytes (n k : ℕ) : P.NR n (P.bytes k) := by
  intro s _ h
  unfold P.bytes at h
  split at h <;> simp at h
theorem P.NR.times {α : Type} {n : ℕ} {p : P α} (hl : Local p) (h : P.NR n p) (k : ℕ) : P.NR n (P.times p k) := by
  induction k with
  | zero => exact P.NR.pure _ _
  | succ k ih => exact P.NR.bind hl h fun _ => P.NR.bind (Local.times hl k) ih fun _ => P.NR.pure _ _
theorem P.NR.lift {α : Type} (n : ℕ) {x : Except Err α} (h : x ≠ .error .recursion) : P.NR n (P.lift x) := by
  intro s _ hs
  cases x with
  | error e => simp [P.lift] at hs; exact h (by rw [hs])
  | ok a => simp [P.lift] at hs

theorem nr_readInt (n : ℕ) : P.NR n readInt := P.NR.bind (Local.bytes 4) (P.NR.bytes _ _) fun _ => P.NR.pure _ _
theorem nr_readChar (n : ℕ) : P.NR n readChar := P.NR.bind (Local.bytes 1) (P.NR.bytes _ _) fun _ => P.NR.pure _ _
theorem nr_readUshort (n : ℕ) : P.NR n readUshort := P.NR.bind (Local.bytes 2) (P.NR.bytes _ _) fun _ => P.NR.pure _ _
theorem nr_readFloat (n : ℕ) : P.NR n readFloat := P.NR.bind (Local.bytes 4) (P.NR.bytes _ _) fun _ => P.NR.pure _ _
theorem nr_readStr (n : ℕ) (k : ℤ) (b : Bool) : P.NR n (readStr k b) := by
  unfold readStr
  cases b <;> simp only [Bool.false_eq_true, if_true, if_false] <;>
    exact P.NR.ite (P.NR.fail _ (by simp)) (P.NR.bind (Local.bytes _) (P.NR.bytes _ _) fun _ => P.NR.pure _ _)

theorem nr_readSurf (n : ℕ) (m : ℤ) (i : ℕ) : P.NR n (readSurf m i) := by
  unfold readSurf
  refine P.NR.ite (P.NR.pure _ _) (P.NR.bind local_readChar (nr_readChar n) fun _ =>
    P.NR.bind local_readChar (nr_readChar n) fun _ => P.NR.bind local_readChar (nr_readChar n) fun _ =>
    P.NR.bind local_readChar (nr_readChar n) fun _ => ?_)
  exact P.NR.ite (P.NR.pure _ _) (P.NR.fail _ (by simp))

theorem nr_readSurfs (n : ℕ) (m : ℤ) (l : List ℕ) : P.NR n (readSurfs m l) := by
  induction l with
  | nil => exact P.NR.pure _ _
  | cons i r ih =>
    exact P.NR.bind (local_readSurf m i) (nr_readSurf n m i) fun _ =>
      P.NR.bind (local_readSurfs m r) ih fun _ => P.NR.pure _ _

theorem nr_loadRest (n : ℕ) (d : CubeData) : P.NR n (loadRest d) := by
  unfold loadRest
  refine P.NR.bind (Local.times local_readUshort 6) (P.NR.times local_readUshort (nr_readUshort n) 6) fun _ => ?_
  refine P.NR.bind (local_ite (Local.map _ local_readUshort) (Local.pure _))
    (P.NR.ite (P.NR.map _ (nr_readUshort n)) (P.NR.pure _ _)) fun _ => ?_
  refine P.NR.bind (local_ite local_readChar (Local.pure _)) (P.NR.ite (nr_readChar n) (P.NR.pure _ _)) fun _ => ?_
  exact P.NR.ite (P.NR.bind local_readChar (nr_readChar n) fun _ => P.NR.bind local_readChar (nr_readChar n) fun _ =>
    P.NR.bind (local_readSurfs _ _) (nr_readSurfs _ _ _) fun _ => P.NR.pure _ _) (P.NR.pure _ _)

theorem nr_loadLoop {n : ℕ} {lc : Bool → P (Bool × Cube)} (hl : ∀ b, Local (lc b)) (h : ∀ b, P.NR n (lc b))
    (k : ℕ) (f : Bool) : P.NR n (loadLoop lc k f) := by
  induction k generalizing f with
  | zero => exact P.NR.pure _ _
  | succ k ih =>
    exact P.NR.bind (hl f) (h f) fun ⟨f', c⟩ => P.NR.ite (P.NR.pure _ _)
      (P.NR.bind (local_loadLoop hl k f') (ih f') fun _ => P.NR.pure _ _)

/-- A reader that consumes at least one byte leaves a shorter input for the rest. -/
theorem P.NR.step {α β : Type} {n : ℕ} {p : P α} {f : α → P β} (h : P.NR n p)
    (hc : ∀ s a r, p s = .ok (a, r) → r.length < s.length) (hf : ∀ a, ∀ m < n, P.NR m (f a)) : P.NR n (p >>= f) := by
  intro s hs
  rw [bind_apply]
  cases hp : p s with
  | error e =>
    intro h'
    exact h s hs (by rw [hp]; exact (by simpa using h'))
  | ok x =>
    obtain ⟨a, r⟩ := x
    have := hc _ _ _ hp
    exact hf a _ (by omega) r le_rfl

theorem readChar_shrinks (s : Bytes) (a : ℤ) (r : Bytes) (h : readChar s = .ok (a, r)) : r.length < s.length := by
  rw [(readChar_range h).2]; simp

theorem readInt_shrinks (s : Bytes) (a : ℤ) (r : Bytes) (h : readInt s = .ok (a, r)) : r.length < s.length := by
  obtain ⟨b, hb, rfl⟩ := readInt_range h
  rw [(packI_ok hb).2]; simp

theorem nr_loadc (fuel n : ℕ) (h : n < fuel) (f : Bool) : P.NR n (loadc fuel f) := by
  induction fuel generalizing n f with
  | zero => omega
  | succ fuel ih =>
    rw [loadc]
    refine P.NR.step (nr_readChar n) readChar_shrinks fun o m hm => ?_
    have nrr := nr_loadRest m
    refine P.NR.ite (P.NR.bind (local_loadLoop (local_loadc fuel) 8 f)
      (nr_loadLoop (local_loadc fuel) (fun b => ih m (by omega) b) 8 f) fun _ => P.NR.pure _ _) ?_
    refine P.NR.ite (P.NR.bind (local_loadRest _) (nrr _) fun _ => P.NR.pure _ _) ?_
    refine P.NR.ite (P.NR.bind (local_loadRest _) (nrr _) fun _ => P.NR.pure _ _) ?_
    refine P.NR.ite (P.NR.bind (Local.times local_readChar 12) (P.NR.times local_readChar (nr_readChar m) 12) fun _ =>
      P.NR.bind (local_loadRest _) (nrr _) fun _ => P.NR.pure _ _) ?_
    exact P.NR.ite (P.NR.bind (local_loadRest _) (nrr _) fun _ => P.NR.pure _ _) (P.NR.pure _ _)

theorem weaponType_nr (v : Val) : weaponType v ≠ .error .recursion := by
  unfold weaponType
  split
  · split <;> simp
  · split <;> simp
  · simp

theorem init_nr (xyz : PyF × PyF × PyF) (t : ℕ) (a : List Val) (l r : List ℤ) :
    Ent.init xyz t a l r ≠ .error .recursion := by
  unfold Ent.init
  by_cases ht : t = 9 ∨ t = 3
  · simp only [ht, if_true]
    cases a with
    | nil => simp [bind, Except.bind]
    | cons x r =>
      cases hw : weaponType x with
      | error e =>
        have := weaponType_nr x
        rw [hw] at this
        simpa [bind, Except.bind, hw] using this
      | ok w =>
        simp only [bind, Except.bind, hw]
        split
        · simp
        · split <;> simp
  · simp only [ht, if_false, bind, Except.bind]
    split
    · simp
    · split <;> simp

theorem nr_readEnt (n : ℕ) : P.NR n readEnt := by
  unfold readEnt
  refine P.NR.bind local_readFloat (nr_readFloat n) fun _ => P.NR.bind local_readFloat (nr_readFloat n) fun _ =>
    P.NR.bind local_readFloat (nr_readFloat n) fun _ => P.NR.bind local_readChar (nr_readChar n) fun _ =>
    P.NR.bind local_readChar (nr_readChar n) fun _ => P.NR.bind local_readChar (nr_readChar n) fun _ =>
    P.NR.bind local_readChar (nr_readChar n) fun _ => P.NR.bind local_readInt (nr_readInt n) fun _ =>
    P.NR.bind (Local.times local_readInt _) (P.NR.times local_readInt (nr_readInt n) _) fun _ =>
    P.NR.bind local_readInt (nr_readInt n) fun _ =>
    P.NR.bind (Local.times local_readInt _) (P.NR.times local_readInt (nr_readInt n) _) fun _ =>
    P.NR.bind (Local.lift _) (P.NR.lift n ?_) fun _ => P.NR.lift n (init_nr _ _ _ _ _)
  unfold entType; split <;> simp

theorem nr_readShaderParams (m : ℕ) (fl : ℤ) (n : ℕ) : P.NR m (readShaderParams fl n) := by
  induction n with
  | zero => exact P.NR.pure _ _
  | succ n ih =>
    rw [readShaderParams]
    refine P.NR.bind local_readUshort (nr_readUshort m) fun _ => P.NR.ite (P.NR.fail _ (by simp))
      (P.NR.bind (local_readStr _ _) (nr_readStr _ _ _) fun _ =>
      P.NR.bind (Local.times local_readFloat 4) (P.NR.times local_readFloat (nr_readFloat m) 4) fun _ => ?_)
    exact P.NR.ite (P.NR.bind local_readInt (nr_readInt m) fun _ => P.NR.bind local_readInt (nr_readInt m) fun _ => ih) ih

theorem nr_onBit {α : Type} (n : ℕ) (c : ℤ) (i : ℕ) {p : P α} (h : P.NR n p) : P.NR n (onBit c i p) :=
  P.NR.ite (P.NR.map _ h) (P.NR.pure _ _)

theorem nr_loadVSlot (n : ℕ) (c : ℤ) : P.NR n (loadVSlot c) := by
  have i2 := P.NR.times local_readInt (nr_readInt n) 2
  have f2 := P.NR.times local_readFloat (nr_readFloat n) 2
  have f3 := P.NR.times local_readFloat (nr_readFloat n) 3
  have li2 := Local.times local_readInt 2
  have lf2 := Local.times local_readFloat 2
  have lf3 := Local.times local_readFloat 3
  have ls : Local readShader := local_readUshort.bind fun _ => local_readShaderParams _ _
  have ns : P.NR n readShader := P.NR.bind local_readUshort (nr_readUshort n) fun _ => nr_readShaderParams _ _ _
  unfold loadVSlot
  refine P.NR.bind (local_onBit _ _ ls) (nr_onBit _ _ _ ns) fun _ =>
    P.NR.bind (local_onBit _ _ local_readFloat) (nr_onBit _ _ _ (nr_readFloat n)) fun _ =>
    P.NR.bind (local_onBit _ _ local_readInt) (nr_onBit _ _ _ (nr_readInt n)) fun _ =>
    P.NR.bind (local_onBit _ _ li2) (nr_onBit _ _ _ i2) fun _ =>
    P.NR.bind (local_onBit _ _ li2) (nr_onBit _ _ _ i2) fun _ =>
    P.NR.bind (local_onBit _ _ local_readInt) (nr_onBit _ _ _ (nr_readInt n)) fun _ =>
    P.NR.bind (local_onBit _ _ lf2) (nr_onBit _ _ _ f2) fun _ =>
    P.NR.bind (local_onBit _ _ lf3) (nr_onBit _ _ _ f3) fun _ =>
    P.NR.bind (local_onBit _ _ li2) (nr_onBit _ _ _ i2) fun _ => nr_onBit _ _ _ (nr_readFloat n)

theorem P.NR.mono {α : Type} {m n : ℕ} {p : P α} (h : P.NR n p) (hm : m ≤ n) : P.NR m p :=
  fun s hs => h s (hs.trans hm)

theorem nr_loadVSlots (fuel n : ℕ) (h : n < fuel) (num : ℤ) (k : ℕ) : P.NR n (loadVSlots fuel num k) := by
  induction fuel generalizing n num k with
  | zero => omega
  | succ fuel ih =>
    rw [loadVSlots]
    refine P.NR.ite (P.NR.pure _ _) (P.NR.step (nr_readInt n) readInt_shrinks fun c m hm => P.NR.ite ?_ ?_)
    · exact P.NR.bind (local_loadVSlots _ _ _) (ih m (by omega) _ _) fun ⟨_, _⟩ => P.NR.pure _ _
    · exact P.NR.bind local_readInt (nr_readInt m) fun _ => P.NR.bind (local_loadVSlot _) (nr_loadVSlot _ _) fun _ =>
        P.NR.bind (local_loadVSlots _ _ _) (ih m (by omega) _ _) fun ⟨_, _⟩ => P.NR.pure _ _

theorem nr_readVar (n : ℕ) : P.NR n readVar := by
  unfold readVar
  refine P.NR.bind local_readInt (nr_readInt n) fun _ => P.NR.bind (local_readStr _ _) (nr_readStr _ _ _) fun _ =>
    P.NR.bind local_readInt (nr_readInt n) fun _ => ?_
  refine P.NR.ite (P.NR.bind local_readInt (nr_readInt n) fun _ =>
    P.NR.bind (local_readStr _ _) (nr_readStr _ _ _) fun _ => P.NR.pure _ _) ?_
  refine P.NR.ite (P.NR.bind local_readFloat (nr_readFloat n) fun _ => P.NR.pure _ _) ?_
  exact P.NR.ite (P.NR.bind local_readInt (nr_readInt n) fun _ => P.NR.pure _ _) (P.NR.fail _ (by simp))

theorem nr_readVars (n k : ℕ) (acc : List (Val × Val)) : P.NR n (readVars k acc) := by
  induction k generalizing acc with
  | zero => exact P.NR.pure _ _
  | succ k ih => exact P.NR.bind local_readVar (nr_readVar n) fun ⟨_, _⟩ => ih _

/-! ### Validation -/

theorem checkFaces_eq (d : CubeData) : checkFaces d = d := by
  unfold checkFaces
  cases hf : d.faces with
  | empty =>
    simp only
    split
    · rw [← hf]
    · rfl
  | solid =>
    simp only
    rw [if_neg (by decide)]

/-- Validation never changes a cube, and raises AttributeError or IndexError only. -/
theorem validateList_spec (k : ℕ) (cs : List Cube)
    (h : ∀ c ∈ cs, ∀ size, validateOne c size = .ok c ∨ validateOne c size = .error .attribute ∨
      validateOne c size = .error .index) (size : ℤ) :
    validateList cs k size = .ok cs ∨ validateList cs k size = .error .attribute ∨
      validateList cs k size = .error .index := by
  induction k generalizing cs with
  | zero => cases cs <;> simp [validateList]
  | succ k ih =>
    cases cs with
    | nil => simp [validateList]
    | cons c r =>
      rcases h c (by simp) size with h1 | h1 | h1
      · rcases ih r (fun x hx => h x (by simp [hx])) with h2 | h2 | h2 <;> simp [validateList, h1, h2]
      · simp [validateList, h1]
      · simp [validateList, h1]

theorem validateOne_spec (c : Cube) : ∀ size, validateOne c size = .ok c ∨
    validateOne c size = .error .attribute ∨ validateOne c size = .error .index := by
  induction c using Cube.ind with
  | h d cs ih =>
    intro size
    cases cs with
    | nil =>
      by_cases h : 0x1000 < size
      · simp [validateOne, h]
      · simp [validateOne, h, checkFaces_eq]
    | cons c r =>
      by_cases h : size ≤ 1
      · simp [validateOne, h]
      · rcases validateList_spec 8 (c :: r) ih (size / 2) with h1 | h1 | h1 <;>
          simp [validateOne, h, h1]

theorem validateList_cases (cs : List Cube) (k : ℕ) (size : ℤ) :
    validateList cs k size = .ok cs ∨ validateList cs k size = .error .attribute ∨
      validateList cs k size = .error .index :=
  validateList_spec k cs (fun c _ => validateOne_spec c) size

theorem validateList_eq {cs cs' : List Cube} {k : ℕ} {size : ℤ} (h : validateList cs k size = .ok cs') : cs' = cs := by
  rcases validateList_cases cs k size with h1 | h1 | h1 <;> rw [h1] at h <;> simp at h
  exact h.symm

theorem nr_readMapAux (n fuel : ℕ) (h : n < fuel) : P.NR n (readMapAux fuel) := by
  unfold readMapAux
  refine P.NR.bind (local_readStr _ _) (nr_readStr _ _ _) fun _ => P.NR.ite (P.NR.fail _ (by simp)) ?_
  have I : ∀ {β : Type} {f : ℤ → P β}, (∀ a, P.NR n (f a)) → P.NR n (readInt >>= f) :=
    fun hf => P.NR.bind local_readInt (nr_readInt n) hf
  refine I fun _ => I fun _ => I fun _ => I fun _ => I fun _ => I fun _ => I fun _ => I fun _ => I fun _ => I fun _ =>
    P.NR.bind (local_readStr _ _) (nr_readStr _ _ _) fun _ => I fun _ =>
    P.NR.bind (local_readVars _ _) (nr_readVars _ _ _) fun _ =>
    P.NR.bind local_readUshort (nr_readUshort n) fun _ =>
    P.NR.bind (Local.times local_readUshort _) (P.NR.times local_readUshort (nr_readUshort n) _) fun _ =>
    P.NR.bind (Local.times local_readEnt _) (P.NR.times local_readEnt (nr_readEnt n) _) fun _ =>
    P.NR.bind (local_loadVSlots _ _ _) (nr_loadVSlots _ _ h _ _) fun ⟨_, _⟩ =>
    P.NR.bind (local_loadLoop (local_loadc _) _ _) (nr_loadLoop (local_loadc _) (fun b => nr_loadc _ _ h b) _ _) fun w =>
    P.NR.bind (Local.lift _) (P.NR.lift n ?_) fun _ => P.NR.pure _ _
  rcases validateList_cases w 8 (_ / 2) with h1 | h1 | h1 <;> rw [h1] <;> simp

end Verif
