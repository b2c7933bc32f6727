import Verif.JsonText
import Verif.Props.FromJson
import Mathlib.Data.Nat.Digits.Lemmas

/-! C102: the text that `to_json` prints is JSON and reads back to the dump. The specification is a reader for JSON texts after RFC 8259. -/

namespace Verif.Props
open Verif Verif.Spec

/-! ### A reader for JSON texts -/

/-- White space (RFC 8259, section 2). -/
def skipSpace (s : List Char) : List Char := s.dropWhile fun c => c == ' ' || c == '\t' || c == '\n' || c == '\r'

/-- The value of a hexadecimal digit. -/
def hexVal (c : Char) : Option ℕ :=
  if '0' ≤ c ∧ c ≤ '9' then some (c.toNat - 48)
  else if 'a' ≤ c ∧ c ≤ 'f' then some (c.toNat - 87)
  else if 'A' ≤ c ∧ c ≤ 'F' then some (c.toNat - 55)
  else none

/-- The characters that may follow a backslash, other than `u` (section 7). -/
def escVal (c : Char) : Option ℕ :=
  if c = '"' then some 34 else if c = '\\' then some 92 else if c = '/' then some 47 else if c = 'b' then some 8
  else if c = 'f' then some 12 else if c = 'n' then some 10 else if c = 'r' then some 13 else if c = 't' then some 9 else none

/-- The UTF-16 code units of a string, from behind the opening quote (section 7). -/
def readUnits : List Char → Option (List ℕ × List Char)
  | [] => none
  | c :: r =>
    if c = '"' then some ([], r)
    else if c = '\\' then
      match r with
      | [] => none
      | e :: r =>
        if e = 'u' then
          match r with
          | a :: b :: c :: d :: r =>
            match hexVal a, hexVal b, hexVal c, hexVal d with
            | some a, some b, some c, some d => (readUnits r).map fun p => ((4096 * a + 256 * b + 16 * c + d) :: p.1, p.2)
            | _, _, _, _ => none
          | _ => none
        else
          match escVal e with
          | none => none
          | some u => (readUnits r).map fun p => (u :: p.1, p.2)
    else if c.toNat < 32 then none
    else (readUnits r).map fun p => (utf16 c ++ p.1, p.2)

/-- The characters that code units stand for; a surrogate on its own is refused. -/
def ofUnits : List ℕ → Option (List Char)
  | [] => some []
  | u :: r =>
    if 55296 ≤ u ∧ u < 56320 then
      match r with
      | [] => none
      | v :: r =>
        if 56320 ≤ v ∧ v < 57344 then (ofUnits r).map fun l => Char.ofNat (65536 + 1024 * (u - 55296) + (v - 56320)) :: l
        else none
    else if 56320 ≤ u ∧ u < 57344 then none
    else (ofUnits r).map fun l => Char.ofNat u :: l

/-- A string, from behind the opening quote. -/
def readStr (s : List Char) : Option (String × List Char) :=
  match readUnits s with
  | none => none
  | some (us, r) =>
    match ofUnits us with
    | none => none
    | some l => some (String.ofList l, r)

/-- The characters of numbers (section 6). -/
def isNum (c : Char) : Bool := c.isDigit || c == '+' || c == '-' || c == '.' || c == 'e' || c == 'E'

/-- Digits without a leading zero. -/
def natShape (d : List Char) : Bool := !d.isEmpty && d.all Char.isDigit && (d.head? != some '0' || d == ['0'])

/-- A text without its minus sign. -/
def unsigned (t : List Char) : List Char := if t.head? = some '-' then t.tail else t

/-- An optional exponent. -/
def expShape : List Char → Bool
  | [] => true
  | e :: r =>
    let d := if r.head? = some '+' ∨ r.head? = some '-' then r.tail else r
    (e == 'e' || e == 'E') && !d.isEmpty && d.all Char.isDigit

/-- An optional fraction and an optional exponent. -/
def fracShape (s : List Char) : Bool :=
  if s.head? = some '.' then
    let d := s.tail.takeWhile Char.isDigit
    !d.isEmpty && expShape (s.tail.dropWhile Char.isDigit)
  else expShape s

/-- A number (section 6). -/
def numShape (t : List Char) : Bool :=
  t.all isNum && natShape ((unsigned t).takeWhile Char.isDigit) && fracShape ((unsigned t).dropWhile Char.isDigit)

/-- The value of digits. -/
def natVal (d : List Char) : ℕ := d.foldl (fun a c => 10 * a + (c.toNat - 48)) 0

/-- A number: an int without fraction and exponent, otherwise a float, whose value is left to `num`. -/
def readNum (num : List Char → Option PyF) (s : List Char) : Option (Json × List Char) :=
  let t := s.takeWhile isNum
  let r := s.dropWhile isNum
  if natShape (unsigned t) then some (.int (if t.head? = some '-' then -(natVal (unsigned t) : ℤ) else natVal (unsigned t)), r)
  else if numShape t then (num t).map fun f => (.flt f, r)
  else none

mutual
/-- A value (section 3), in at most so many steps. -/
def readVal (num : List Char → Option PyF) : ℕ → List Char → Option (Json × List Char)
  | 0, _ => none
  | n + 1, s =>
    match skipSpace s with
    | [] => none
    | c :: r =>
      if c = '"' then (readStr r).map fun p => (.str p.1, p.2)
      else if c = '[' then
        match skipSpace r with
        | [] => none
        | c' :: r' => if c' = ']' then some (.arr [], r') else (readItems num n r).map fun p => (.arr p.1, p.2)
      else if c = '{' then
        match skipSpace r with
        | [] => none
        | c' :: r' => if c' = '}' then some (.obj [], r') else (readPairs num n r).map fun p => (.obj p.1, p.2)
      else if (c :: r).take 4 = ['n', 'u', 'l', 'l'] then some (.null, (c :: r).drop 4)
      else if (c :: r).take 4 = ['t', 'r', 'u', 'e'] then some (.bool true, (c :: r).drop 4)
      else if (c :: r).take 5 = ['f', 'a', 'l', 's', 'e'] then some (.bool false, (c :: r).drop 5)
      else readNum num (c :: r)
/-- The items of an array up to the closing bracket (section 5). -/
def readItems (num : List Char → Option PyF) : ℕ → List Char → Option (List Json × List Char)
  | 0, _ => none
  | n + 1, s =>
    match readVal num n s with
    | none => none
    | some (j, r) =>
      match skipSpace r with
      | [] => none
      | c :: r' =>
        if c = ']' then some ([j], r')
        else if c = ',' then (readItems num n r').map fun p => (j :: p.1, p.2)
        else none
/-- The members of an object up to the closing brace (section 4). -/
def readPairs (num : List Char → Option PyF) : ℕ → List Char → Option (List (String × Json) × List Char)
  | 0, _ => none
  | n + 1, s =>
    match skipSpace s with
    | [] => none
    | q :: r =>
      if q = '"' then
        match readStr r with
        | none => none
        | some (k, r) =>
          match skipSpace r with
          | [] => none
          | c :: r =>
            if c = ':' then
              match readVal num n r with
              | none => none
              | some (j, r) =>
                match skipSpace r with
                | [] => none
                | c :: r' =>
                  if c = '}' then some ([(k, j)], r')
                  else if c = ',' then (readPairs num n r').map fun p => ((k, j) :: p.1, p.2)
                  else none
            else none
      else none
end

/-- Reading a whole JSON text (section 2): a value with white space around it. -/
def readJson (num : List Char → Option PyF) (s : List Char) : Option Json :=
  match readVal num (s.length + 1) s with
  | none => none
  | some (j, r) => if skipSpace r = [] then some j else none

/-! ### Strings -/

theorem hexVal_hexDigit (n : ℕ) (h : n < 16) : hexVal (hexDigit n) = some n := by
  have : ∀ n : Fin 16, hexVal (hexDigit n) = some n.1 := by decide
  exact this ⟨n, h⟩

theorem toNat_lt (c : Char) : c.toNat < 0x110000 ∧ ¬ (55296 ≤ c.toNat ∧ c.toNat < 57344) := by
  have := c.valid
  unfold UInt32.isValidChar Nat.isValidChar at this
  have e : c.val.toNat = c.toNat := rfl
  rw [e] at this
  omega

theorem utf16_lt (c : Char) : ∀ u ∈ utf16 c, u < 65536 := by
  have := (toNat_lt c).1
  unfold utf16
  split
  · rename_i h
    intro u hu
    rw [List.mem_singleton] at hu
    omega
  · intro u hu
    rw [List.mem_cons, List.mem_singleton] at hu
    rcases hu with hu | hu <;> omega

theorem ofUnits_utf16 (s : List Char) : ofUnits (s.flatMap utf16) = some s := by
  induction s with
  | nil => rfl
  | cons c s ih =>
    have h := toNat_lt c
    rw [List.flatMap_cons]
    rw [utf16]
    by_cases hc : c.toNat < 65536
    · rw [if_pos hc, List.singleton_append, ofUnits.eq_def]
      simp only
      rw [if_neg (by omega), if_neg (by omega), ih]
      simp
    · rw [if_neg hc, List.cons_append, List.singleton_append, ofUnits.eq_def]
      simp only
      rw [if_pos (by omega), if_pos (by omega), ih]
      have : 65536 + 1024 * (55296 + (c.toNat - 65536) / 1024 - 55296) + (56320 + (c.toNat - 65536) % 1024 - 56320) = c.toNat := by omega
      rw [this]
      simp

theorem readUnits_hex (u : ℕ) (hu : u < 65536) (r : List Char) :
    readUnits ('\\' :: 'u' :: hex4 u ++ r) = (readUnits r).map fun p => (u :: p.1, p.2) := by
  have e : 4096 * (u / 4096 % 16) + 256 * (u / 256 % 16) + 16 * (u / 16 % 16) + u % 16 = u := by omega
  simp only [hex4, List.cons_append, List.nil_append]
  rw [readUnits, if_neg (by decide), if_pos rfl]
  simp only [if_true]
  rw [hexVal_hexDigit _ (by omega), hexVal_hexDigit _ (by omega), hexVal_hexDigit _ (by omega), hexVal_hexDigit _ (by omega)]
  simp only
  rw [e]

theorem readUnits_hexes (us : List ℕ) (hu : ∀ u ∈ us, u < 65536) (r : List Char) :
    readUnits (us.flatMap (fun u => '\\' :: 'u' :: hex4 u) ++ r) = (readUnits r).map fun p => (us ++ p.1, p.2) := by
  induction us with
  | nil => simp
  | cons u us ih =>
    rw [List.flatMap_cons, List.append_assoc, readUnits_hex u (hu u List.mem_cons_self), ih fun x hx => hu x (List.mem_cons_of_mem _ hx)]
    cases readUnits r <;> simp

theorem readUnits_escape (e : Char) (u : ℕ) (h : escVal e = some u) (r : List Char) :
    readUnits ('\\' :: e :: r) = (readUnits r).map fun p => (u :: p.1, p.2) := by
  rw [readUnits.eq_def]
  simp only
  rw [if_neg (by decide), if_pos trivial]
  have : e ≠ 'u' := by 
    rintro rfl
    have e : escVal 'u' = none := by decide
    rw [e] at h
    cases h
  simp only [if_neg this, h]

theorem readUnits_char (c : Char) (r : List Char) : readUnits (escChar c ++ r) = (readUnits r).map fun p => (utf16 c ++ p.1, p.2) := by
  unfold escChar
  split_ifs with h1 h2 h3 h4 h5 h6 h7 h8
  · subst h1; exact readUnits_escape _ 34 (by decide) r
  · subst h2; exact readUnits_escape _ 92 (by decide) r
  · subst h3; exact readUnits_escape _ 10 (by decide) r
  · subst h4; exact readUnits_escape _ 13 (by decide) r
  · subst h5; exact readUnits_escape _ 9 (by decide) r
  · subst h6; exact readUnits_escape _ 12 (by decide) r
  · subst h7; exact readUnits_escape _ 8 (by decide) r
  · rw [List.singleton_append, readUnits.eq_def]
    simp only
    rw [if_neg h1, if_neg h2, if_neg (by omega)]
  · exact readUnits_hexes _ (utf16_lt c) r

theorem readUnits_chars (l r : List Char) : readUnits (l.flatMap escChar ++ '"' :: r) = some (l.flatMap utf16, r) := by
  induction l with
  | nil => rw [List.flatMap_nil, List.nil_append, readUnits.eq_def]; rfl
  | cons c l ih => rw [List.flatMap_cons, List.append_assoc, readUnits_char, ih]; simp

/-- A string that is written can be read. -/
theorem readStr_text (s : String) (r : List Char) : ∃ t, strText s ++ r = '"' :: t ∧ readStr t = some (s, r) := by
  refine ⟨s.toList.flatMap escChar ++ '"' :: r, by simp [strText], ?_⟩
  unfold readStr
  rw [readUnits_chars]
  simp only
  rw [ofUnits_utf16]
  simp

/-! ### Numbers -/

theorem digit_val : ∀ d < 10, (Char.ofNat (48 + d)).isDigit = true ∧ (Char.ofNat (48 + d)).toNat - 48 = d ∧ isNum (Char.ofNat (48 + d)) = true ∧
    (Char.ofNat (48 + d) = '0' ↔ d = 0) ∧ Char.ofNat (48 + d) ≠ '-' := by decide

theorem natText_digits (n : ℕ) : ∃ ds : List ℕ, natText n = ds.map (fun d => Char.ofNat (48 + d)) ∧ (∀ d ∈ ds, d < 10) ∧ ds ≠ [] ∧
    (ds.head? = some 0 → ds = [0]) ∧ ds.foldl (fun a d => 10 * a + d) 0 = n := by
  unfold natText
  split
  · rename_i h; exact ⟨[0], rfl, by simp, by simp, by simp, by simp [h]⟩
  · rename_i h
    refine ⟨(Nat.digits 10 n).reverse, rfl, ?_, by simpa [Nat.digits_eq_nil_iff_eq_zero] using h, ?_, ?_⟩
    · intro d hd; exact Nat.digits_lt_base (by norm_num) (List.mem_reverse.1 hd)
    · intro hh
      rw [List.head?_reverse] at hh
      have hne : Nat.digits 10 n ≠ [] := by simpa [Nat.digits_eq_nil_iff_eq_zero] using h
      rw [List.getLast?_eq_some_getLast hne] at hh
      exact absurd (Option.some.inj hh) (Nat.getLast_digit_ne_zero 10 h)
    · rw [List.foldl_reverse]
      have : ∀ l : List ℕ, l.foldr (fun d a => 10 * a + d) 0 = Nat.ofDigits 10 l := by
        intro l
        induction l with
        | nil => rfl
        | cons d l ih => rw [List.foldr_cons, ih, Nat.ofDigits_cons]; omega
      rw [this, Nat.ofDigits_digits]

theorem natText_shape (n : ℕ) : natShape (natText n) = true ∧ natVal (natText n) = n ∧ (natText n).all isNum = true ∧
    (natText n).head? ≠ some '-' := by
  obtain ⟨ds, e, h1, h2, h3, h4⟩ := natText_digits n
  rw [e]
  refine ⟨?_, ?_, ?_, ?_⟩
  · unfold natShape
    simp only [Bool.and_eq_true, Bool.not_eq_eq_eq_not, Bool.not_true, Bool.or_eq_true, bne_iff_ne, ne_eq, beq_iff_eq, List.all_eq_true]
    refine ⟨⟨by simpa using h2, ?_⟩, ?_⟩
    · intro c hc
      obtain ⟨d, hd, rfl⟩ := List.mem_map.1 hc
      exact (digit_val d (h1 d hd)).1
    · cases ds with
      | nil => exact absurd rfl h2
      | cons d ds =>
        by_cases hd : d = 0
        · subst hd; right; rw [h3 rfl]; rfl
        · left
          simp only [List.map_cons, List.head?_cons, Option.some.injEq]
          exact fun h => hd ((digit_val d (h1 d List.mem_cons_self)).2.2.2.1.1 h)
  · unfold natVal
    rw [List.foldl_map]
    have : ∀ (l : List ℕ) (a : ℕ), (∀ d ∈ l, d < 10) → l.foldl (fun a d => 10 * a + ((Char.ofNat (48 + d)).toNat - 48)) a =
        l.foldl (fun a d => 10 * a + d) a := by
      intro l
      induction l with
      | nil => intros; rfl
      | cons d l ih =>
        intro a hl
        rw [List.foldl_cons, List.foldl_cons, (digit_val d (hl d List.mem_cons_self)).2.1, ih _ fun x hx => hl x (List.mem_cons_of_mem _ hx)]
    rw [this ds 0 h1, h4]
  · rw [List.all_eq_true]
    intro c hc
    obtain ⟨d, hd, rfl⟩ := List.mem_map.1 hc
    exact (digit_val d (h1 d hd)).2.2.1
  · cases ds with
    | nil => exact absurd rfl h2
    | cons d ds =>
      simp only [List.map_cons, List.head?_cons, ne_eq, Option.some.injEq]
      exact (digit_val d (h1 d List.mem_cons_self)).2.2.2.2

/-- The text goes on with something that is not part of a number. -/
def Stops (r : List Char) : Prop := ∀ c, r.head? = some c → isNum c = false

theorem take_num (t r : List Char) (ht : t.all isNum = true) (hr : Stops r) : (t ++ r).takeWhile isNum = t ∧ (t ++ r).dropWhile isNum = r := by
  induction t with
  | nil =>
    cases r with
    | nil => simp
    | cons c r => have := hr c rfl; simp [this]
  | cons c t ih =>
    rw [List.all_cons, Bool.and_eq_true] at ht
    obtain ⟨h1, h2⟩ := ih ht.2
    simp [ht.1, h1, h2]

theorem readNum_int (num : List Char → Option PyF) (n : ℤ) (r : List Char) (hr : Stops r) : readNum num (intText n ++ r) = some (.int n, r) := by
  simp only [readNum]
  cases n with
  | ofNat n =>
    obtain ⟨h1, h2, h3, h4⟩ := natText_shape n
    obtain ⟨e1, e2⟩ := take_num _ r h3 hr
    rw [intText, e1, e2]
    have : unsigned (natText n) = natText n := by rw [unsigned, if_neg h4]
    rw [this, if_pos h1, if_neg h4, h2]
    rfl
  | negSucc n =>
    obtain ⟨h1, h2, h3, h4⟩ := natText_shape (n + 1)
    have h3' : ('-' :: natText (n + 1)).all isNum = true := by rw [List.all_cons, h3]; rfl
    obtain ⟨e1, e2⟩ := take_num _ r h3' hr
    rw [intText, e1, e2]
    have : unsigned ('-' :: natText (n + 1)) = natText (n + 1) := by simp [unsigned]
    rw [this, if_pos h1, if_pos (by rfl), h2]
    simp [Int.negSucc_eq]

/-- A float that is neither infinite nor NaN. -/
def finite : PyF → Bool
  | .nan _ _ => false
  | .inf _ => false
  | _ => true

/-- What is assumed of the text of a finite float: it is a JSON number that is not an int, and reading it gives the float. -/
structure FloatOk (repr : PyF → List Char) (num : List Char → Option PyF) (f : PyF) : Prop where
  shape : finite f = true → numShape (repr f) = true
  float : finite f = true → natShape (unsigned (repr f)) = false
  back : finite f = true → num (repr f) = some f

theorem floatText_ok (repr : PyF → List Char) {f : PyF} (h : finite f = true) : floatText repr f = repr f := by
  cases f with
  | nan b n => cases h
  | inf b => cases h
  | _ => rfl

theorem readNum_flt (repr : PyF → List Char) (num : List Char → Option PyF) (f : PyF) (h : FloatOk repr num f) (hf : finite f = true)
    (r : List Char) (hr : Stops r) : readNum num (floatText repr f ++ r) = some (.flt f, r) := by
  rw [floatText_ok repr hf]
  have h3 : (repr f).all isNum = true := by
    have := h.shape hf
    unfold numShape at this
    simp only [Bool.and_eq_true] at this
    exact this.1.1
  obtain ⟨e1, e2⟩ := take_num _ r h3 hr
  unfold readNum
  simp only
  rw [e1, e2, h.float hf, h.shape hf, h.back hf]
  simp

/-! ### Values -/

mutual
/-- All floats in a value satisfy `p`. -/
def AllFloats (p : PyF → Prop) : Json → Prop
  | .flt f => p f
  | .arr l => AllItems p l
  | .obj l => AllPairs p l
  | _ => True
/-- All floats in the items. -/
def AllItems (p : PyF → Prop) : List Json → Prop
  | [] => True
  | j :: r => AllFloats p j ∧ AllItems p r
/-- All floats in the members. -/
def AllPairs (p : PyF → Prop) : List (String × Json) → Prop
  | [] => True
  | (_, j) :: r => AllFloats p j ∧ AllPairs p r
end

mutual
/-- All floats in a value are finite. -/
def finiteIn : Json → Bool
  | .flt f => finite f
  | .arr l => finiteItems l
  | .obj l => finitePairs l
  | _ => true
/-- All floats in the items are finite. -/
def finiteItems : List Json → Bool
  | [] => true
  | j :: r => finiteIn j && finiteItems r
/-- All floats in the members are finite. -/
def finitePairs : List (String × Json) → Bool
  | [] => true
  | (_, j) :: r => finiteIn j && finitePairs r
end

theorem stops_of (c : Char) (r : List Char) (h : isNum c = false) : Stops (c :: r) := by
  intro d hd
  cases hd
  exact h

/-- The first character of a value is not white space. -/
theorem num_head (c : Char) (h : isNum c = true) : (c == ' ' || c == '\t' || c == '\n' || c == '\r') = false ∧ c ≠ '"' ∧ c ≠ '[' ∧ c ≠ '{' ∧
    c ≠ ']' ∧ c ≠ '}' ∧ c ≠ 'n' ∧ c ≠ 't' ∧ c ≠ 'f' := by
  refine ⟨?_, ?_, ?_, ?_, ?_, ?_, ?_, ?_, ?_⟩
  · by_contra hc
    simp only [Bool.not_eq_false, Bool.or_eq_true, beq_iff_eq] at hc
    rcases hc with ((rfl | rfl) | rfl) | rfl <;> exact absurd h (by decide)
  all_goals rintro rfl; exact absurd h (by decide)

theorem skip_head (c : Char) (r : List Char) (h : (c == ' ' || c == '\t' || c == '\n' || c == '\r') = false) : skipSpace (c :: r) = c :: r := by
  unfold skipSpace
  rw [List.dropWhile_cons, h]
  simp

theorem skip_space (r : List Char) : skipSpace (' ' :: r) = skipSpace r := by
  unfold skipSpace
  rw [List.dropWhile_cons]
  rfl

theorem readVal_space (num : List Char → Option PyF) (n : ℕ) (s : List Char) : readVal num n (' ' :: s) = readVal num n s := by
  cases n with
  | zero => rfl
  | succ n => rw [readVal, readVal, skip_space]

theorem readItems_space (num : List Char → Option PyF) (n : ℕ) (s : List Char) : readItems num n (' ' :: s) = readItems num n s := by
  cases n with
  | zero => rfl
  | succ n => rw [readItems, readItems, readVal_space]

theorem readPairs_space (num : List Char → Option PyF) (n : ℕ) (s : List Char) : readPairs num n (' ' :: s) = readPairs num n s := by
  cases n with
  | zero => rfl
  | succ n => rw [readPairs, readPairs, skip_space]

/-- Reading something that begins like a number. -/
theorem readVal_num (num : List Char → Option PyF) (n : ℕ) (s : List Char) (h : ∃ c t, s = c :: t ∧ isNum c = true) :
    readVal num (n + 1) s = readNum num s := by
  obtain ⟨c, t, rfl, hc⟩ := h
  obtain ⟨h0, h1, h2, h3, -, -, h4, h5, h6⟩ := num_head c hc
  rw [readVal, skip_head c t h0]
  simp only [h1, h2, h3, if_false]
  rw [if_neg (by simp [h4]), if_neg (by simp [h5]), if_neg (by simp [h6])]

/-- How a value begins. -/
structure Begins (t : List Char) : Prop where
  ex : ∃ c r, t = c :: r ∧ (c == ' ' || c == '\t' || c == '\n' || c == '\r') = false ∧ c ≠ ']' ∧ c ≠ '}'

theorem intText_head (n : ℤ) : ∃ c t, intText n = c :: t ∧ isNum c = true := by
  cases n with
  | ofNat n =>
    obtain ⟨h1, -, h3, -⟩ := natText_shape n
    simp only [intText]
    cases h : natText n with
    | nil => rw [h] at h1; exact absurd h1 (by decide)
    | cons c t => rw [h, List.all_cons, Bool.and_eq_true] at h3; exact ⟨c, t, rfl, h3.1⟩
  | negSucc n => exact ⟨_, _, rfl, by decide⟩

theorem float_head {repr : PyF → List Char} {num : List Char → Option PyF} {f : PyF} (h : FloatOk repr num f) (hf : finite f = true) :
    ∃ c t, floatText repr f = c :: t ∧ isNum c = true := by
  rw [floatText_ok repr hf]
  have := h.shape hf
  cases hr : repr f with
  | nil => rw [hr] at this; exact absurd this (by decide)
  | cons c t =>
    rw [hr] at this
    unfold numShape at this
    simp only [Bool.and_eq_true, List.all_cons] at this
    exact ⟨c, t, rfl, this.1.1.1⟩

theorem chars_begins (repr : PyF → List Char) (num : List Char → Option PyF) (j : Json) (h : AllFloats (FloatOk repr num) j) :
    Begins (j.chars repr) := by
  have key : ∀ t : List Char, (∃ c r, t = c :: r ∧ isNum c = true) → Begins t := by
    rintro t ⟨c, r, rfl, hc⟩
    obtain ⟨h0, -, -, -, h1, h2, -⟩ := num_head c hc
    exact ⟨⟨c, r, rfl, h0, h1, h2⟩⟩
  cases j with
  | null => exact ⟨⟨_, _, by rw [Json.chars], by decide, by decide, by decide⟩⟩
  | bool b => cases b <;> exact ⟨⟨_, _, by rw [Json.chars], by decide, by decide, by decide⟩⟩
  | int n => rw [Json.chars]; exact key _ (intText_head n)
  | flt f =>
    rw [Json.chars]
    rw [AllFloats] at h
    by_cases hf : finite f = true
    · exact key _ (float_head h hf)
    · cases f with
      | nan b n => exact ⟨⟨_, _, rfl, by decide, by decide, by decide⟩⟩
      | inf b => cases b <;> exact ⟨⟨_, _, rfl, by decide, by decide, by decide⟩⟩
      | _ => exact absurd rfl hf
  | str s => exact ⟨⟨_, _, by rw [Json.chars, strText], by decide, by decide, by decide⟩⟩
  | arr l => exact ⟨⟨_, _, by rw [Json.chars], by decide, by decide, by decide⟩⟩
  | obj l => exact ⟨⟨_, _, by rw [Json.chars], by decide, by decide, by decide⟩⟩

variable {repr : PyF → List Char} {num : List Char → Option PyF}

/-- What is to be shown for a value: its text is read as the value, whatever follows, if all floats are finite; otherwise it is not JSON. -/
def ReadsBack (repr : PyF → List Char) (num : List Char → Option PyF) (j : Json) : Prop :=
  ∀ (n : ℕ) (r : List Char), (j.chars repr).length ≤ n → Stops r →
    readVal num (n + 1) (j.chars repr ++ r) = if finiteIn j then some (j, r) else none

theorem items_back (l : List Json) (hl : ∀ j ∈ l, ReadsBack repr num j) : ∀ (j : Json), ReadsBack repr num j → ∀ (n : ℕ) (r : List Char),
    (itemChars repr (j :: l)).length < n →
      readItems num (n + 1) (itemChars repr (j :: l) ++ ']' :: r) = if finiteItems (j :: l) then some (j :: l, r) else none := by
  induction l with
  | nil =>
    intro j hj n r hn
    obtain ⟨n, rfl⟩ : ∃ k, n = k + 1 := ⟨n - 1, by omega⟩
    simp only [itemChars, moreItems, List.append_nil] at hn ⊢
    rw [readItems, hj n _ (by omega) (stops_of _ _ (by decide)), finiteItems, finiteItems]
    cases finiteIn j
    · rfl
    · simp only [if_true, Bool.and_true]
      rw [skip_head _ _ (by decide)]
      simp
  | cons i l ih =>
    intro j hj n r hn
    obtain ⟨n, rfl⟩ : ∃ k, n = k + 1 := ⟨n - 1, by omega⟩
    have e : itemChars repr (j :: i :: l) = j.chars repr ++ ',' :: ' ' :: itemChars repr (i :: l) := by rw [itemChars, moreItems, itemChars]
    rw [e] at hn ⊢
    simp only [List.length_append, List.length_cons] at hn
    rw [readItems, List.append_assoc, List.cons_append, List.cons_append, hj n _ (by omega) (stops_of _ _ (by decide)), finiteItems]
    cases finiteIn j
    · rfl
    · simp only [if_true, Bool.true_and]
      rw [skip_head _ _ (by decide)]
      simp only
      rw [if_neg (by decide), if_pos trivial, readItems_space,
        ih (fun x hx => hl x (List.mem_cons_of_mem _ hx)) i (hl i List.mem_cons_self) n r (by omega)]
      cases finiteItems (i :: l) <;> rfl

theorem pairs_read (l : List (String × Json)) (hl : ∀ p ∈ l, ReadsBack repr num p.2) : ∀ (p : String × Json), ReadsBack repr num p.2 →
    ∀ (n : ℕ) (r : List Char), (pairChars repr (p :: l)).length < n →
      readPairs num (n + 1) (pairChars repr (p :: l) ++ '}' :: r) = if finitePairs (p :: l) then some (p :: l, r) else none := by
  induction l with
  | nil =>
    rintro ⟨k, j⟩ hj n r hn
    obtain ⟨n, rfl⟩ : ∃ k, n = k + 1 := ⟨n - 1, by omega⟩
    simp only [pairChars, morePairs, List.append_nil, List.length_append, List.length_cons] at hn ⊢
    obtain ⟨t, e1, e2⟩ := readStr_text k (':' :: ' ' :: (j.chars repr ++ '}' :: r))
    have e : (strText k ++ ':' :: ' ' :: j.chars repr) ++ '}' :: r = '"' :: t := by rw [← e1]; simp
    rw [e, readPairs, skip_head _ _ (by decide)]
    simp only
    rw [if_pos trivial, e2]
    simp only
    rw [skip_head _ _ (by decide)]
    simp only
    rw [if_pos trivial, readVal_space, hj n _ (by simp only; omega) (stops_of _ _ (by decide)), finitePairs, finitePairs]
    simp only
    cases finiteIn j
    · rfl
    · simp only [if_true, Bool.and_true]
      rw [skip_head _ _ (by decide)]
      simp
  | cons q l ih =>
    rintro ⟨k, j⟩ hj n r hn
    obtain ⟨n, rfl⟩ : ∃ k, n = k + 1 := ⟨n - 1, by omega⟩
    have e : pairChars repr ((k, j) :: q :: l) = strText k ++ ':' :: ' ' :: (j.chars repr ++ ',' :: ' ' :: pairChars repr (q :: l)) := by
      obtain ⟨k', j'⟩ := q
      rw [pairChars, morePairs, pairChars]
    rw [e] at hn ⊢
    simp only [List.length_append, List.length_cons] at hn
    obtain ⟨t, e1, e2⟩ := readStr_text k (':' :: ' ' :: (j.chars repr ++ ',' :: ' ' :: (pairChars repr (q :: l) ++ '}' :: r)))
    have e : (strText k ++ ':' :: ' ' :: (j.chars repr ++ ',' :: ' ' :: pairChars repr (q :: l))) ++ '}' :: r = '"' :: t := by rw [← e1]; simp
    rw [e, readPairs, skip_head _ _ (by decide)]
    simp only
    rw [if_pos trivial, e2]
    simp only
    rw [skip_head _ _ (by decide)]
    simp only
    rw [if_pos trivial, readVal_space, hj n _ (by simp only; omega) (stops_of _ _ (by decide)), finitePairs]
    simp only
    cases finiteIn j
    · rfl
    · simp only [if_true, Bool.true_and]
      rw [skip_head _ _ (by decide)]
      simp only
      rw [if_neg (by decide), if_pos trivial, readPairs_space,
        ih (fun x hx => hl x (List.mem_cons_of_mem _ hx)) q (hl q List.mem_cons_self) n r (by omega)]
      cases finitePairs (q :: l) <;> rfl

/-- A float that is not finite has no JSON text. -/
theorem readVal_special (repr : PyF → List Char) (num : List Char → Option PyF) (f : PyF) (hf : finite f = false) (n : ℕ) (r : List Char) :
    readVal num (n + 1) (floatText repr f ++ r) = none := by
  cases f with
  | nan b k => rw [floatText, readVal, List.cons_append, skip_head _ _ (by decide)]; rfl
  | inf b =>
    cases b
    · rw [floatText, readVal, List.cons_append, skip_head _ _ (by decide)]; rfl
    · rw [floatText, List.cons_append, readVal_num num n _ ⟨'-', _, rfl, by decide⟩]
      unfold readNum
      simp only
      have e : isNum '-' = true := by decide
      have e' : isNum 'I' = false := by decide
      simp only [List.cons_append, List.takeWhile_cons, e, e']
      rfl
  | _ => cases hf

mutual
theorem chars_back (j : Json) (h : AllFloats (FloatOk repr num) j) : ReadsBack repr num j := by
  intro n r hn hr
  cases j with
  | null => rw [Json.chars, readVal, List.cons_append, skip_head _ _ (by decide)]; rfl
  | bool b => cases b <;> (rw [Json.chars, readVal, List.cons_append, skip_head _ _ (by decide)]; rfl)
  | int i =>
    rw [Json.chars]
    obtain ⟨c, t, e, hc⟩ := intText_head i
    rw [readVal_num num n _ ⟨c, t ++ r, by rw [e]; rfl, hc⟩, readNum_int num i r hr]
    rfl
  | flt f =>
    rw [AllFloats] at h
    rw [Json.chars]
    by_cases hf : finite f = true
    · obtain ⟨c, t, e, hc⟩ := float_head h hf
      rw [readVal_num num n _ ⟨c, t ++ r, by rw [e]; rfl, hc⟩, readNum_flt repr num f h hf r hr, finiteIn, if_pos hf]
    · rw [finiteIn, if_neg hf, readVal_special repr num f (by simpa using hf)]
  | str s =>
    rw [Json.chars]
    obtain ⟨t, e1, e2⟩ := readStr_text s r
    rw [e1, readVal, skip_head _ _ (by decide)]
    simp only
    rw [if_pos trivial, e2]
    rfl
  | arr l =>
    rw [AllFloats] at h
    have hl := items_all l h
    rw [Json.chars] at hn ⊢
    rw [List.cons_append, List.append_assoc, List.singleton_append, readVal, skip_head _ _ (by decide)]
    simp only
    rw [if_neg (by decide), if_pos trivial]
    cases l with
    | nil => rw [itemChars, List.nil_append, skip_head _ _ (by decide)]; rfl
    | cons i l =>
      obtain ⟨c, t, e, h1, h2, -⟩ := (chars_begins repr num i (by rw [AllItems] at h; exact h.1)).ex
      have e' : itemChars repr (i :: l) ++ ']' :: r = c :: (t ++ moreItems repr l ++ ']' :: r) := by rw [itemChars, e]; simp
      rw [e', skip_head _ _ h1]
      simp only
      rw [if_neg h2, ← e']
      simp only [List.length_cons, List.length_append, List.length_nil] at hn
      obtain ⟨n, rfl⟩ : ∃ k, n = k + 1 := ⟨n - 1, by omega⟩
      rw [items_back l (fun x hx => hl x (List.mem_cons_of_mem _ hx)) i (hl i List.mem_cons_self) n r (by omega), finiteIn]
      cases finiteItems (i :: l) <;> rfl
  | obj l =>
    rw [AllFloats] at h
    have hl := pairs_all l h
    rw [Json.chars] at hn ⊢
    rw [List.cons_append, List.append_assoc, List.singleton_append, readVal, skip_head _ _ (by decide)]
    simp only
    rw [if_neg (by decide), if_neg (by decide), if_pos trivial]
    cases l with
    | nil => rw [pairChars, List.nil_append, skip_head _ _ (by decide)]; rfl
    | cons p l =>
      obtain ⟨k, j⟩ := p
      have e' : pairChars repr ((k, j) :: l) ++ '}' :: r = '"' :: ((k.toList.flatMap escChar ++ ['"']) ++ ':' :: ' ' :: (j.chars repr ++ morePairs repr l) ++ '}' :: r) := by
        rw [pairChars, strText]; simp
      rw [e', skip_head _ _ (by decide)]
      simp only
      rw [if_neg (by decide), ← e']
      simp only [List.length_cons, List.length_append, List.length_nil] at hn
      obtain ⟨n, rfl⟩ : ∃ k, n = k + 1 := ⟨n - 1, by omega⟩
      rw [pairs_read l (fun x hx => hl x (List.mem_cons_of_mem _ hx)) (k, j) (hl _ List.mem_cons_self) n r (by omega), finiteIn]
      cases finitePairs ((k, j) :: l) <;> rfl
theorem items_all (l : List Json) (h : AllItems (FloatOk repr num) l) : ∀ j ∈ l, ReadsBack repr num j := by
  cases l with
  | nil => intro j hj; cases hj
  | cons i l =>
    rw [AllItems] at h
    have h1 := chars_back i h.1
    have h2 := items_all l h.2
    intro j hj
    rcases List.mem_cons.1 hj with rfl | hj
    · exact h1
    · exact h2 j hj
theorem pairs_all (l : List (String × Json)) (h : AllPairs (FloatOk repr num) l) : ∀ p ∈ l, ReadsBack repr num p.2 := by
  cases l with
  | nil => intro j hj; cases hj
  | cons i l =>
    obtain ⟨k, i⟩ := i
    rw [AllPairs] at h
    have h1 := chars_back i h.1
    have h2 := pairs_all l h.2
    intro p hp
    rcases List.mem_cons.1 hp with rfl | hp
    · exact h1
    · exact h2 p hp
end

/-- **C102, the text of a value**: if all floats in the value are finite, reading its text gives the value; otherwise the text is not JSON. -/
theorem C102_text (repr : PyF → List Char) (num : List Char → Option PyF) (j : Json) (h : AllFloats (FloatOk repr num) j) :
    readJson num (j.chars repr) = if finiteIn j then some j else none := by
  have := chars_back j h (j.chars repr).length [] le_rfl (by intro c hc; cases hc)
  rw [List.append_nil] at this
  rw [readJson, this]
  cases finiteIn j <;> rfl

/-! ### The floats of a map -/

mutual
theorem finiteIn_iff (j : Json) : finiteIn j = true ↔ AllFloats (fun f => finite f = true) j := by
  cases j with
  | arr l => rw [finiteIn, AllFloats]; exact finiteItems_iff l
  | obj l => rw [finiteIn, AllFloats]; exact finitePairs_iff l
  | _ => simp [finiteIn, AllFloats]
theorem finiteItems_iff (l : List Json) : finiteItems l = true ↔ AllItems (fun f => finite f = true) l := by
  cases l with
  | nil => simp [finiteItems, AllItems]
  | cons j l => rw [finiteItems, AllItems, Bool.and_eq_true, finiteIn_iff j, finiteItems_iff l]
theorem finitePairs_iff (l : List (String × Json)) : finitePairs l = true ↔ AllPairs (fun f => finite f = true) l := by
  cases l with
  | nil => simp [finitePairs, AllPairs]
  | cons j l =>
    obtain ⟨k, j⟩ := j
    rw [finitePairs, AllPairs, Bool.and_eq_true, finiteIn_iff j, finitePairs_iff l]
end

theorem allItems_iff (p : PyF → Prop) (l : List Json) : AllItems p l ↔ ∀ j ∈ l, AllFloats p j := by
  induction l with
  | nil => simp [AllItems]
  | cons j l ih => simp [AllItems, ih]

theorem allPairs_iff (p : PyF → Prop) (l : List (String × Json)) : AllPairs p l ↔ ∀ q ∈ l, AllFloats p q.2 := by
  induction l with
  | nil => simp [AllPairs]
  | cons j l ih => obtain ⟨k, j⟩ := j; simp [AllPairs, ih]

theorem ints_floats (p : PyF → Prop) (l : List ℤ) : AllFloats p (intsJson l) := by
  rw [intsJson, AllFloats, allItems_iff]
  intro j hj
  obtain ⟨n, -, rfl⟩ := List.mem_map.1 hj
  simp [AllFloats]

theorem strs_floats (p : PyF → Prop) (l : List String) : AllFloats p (.arr (l.map .str)) := by
  rw [AllFloats, allItems_iff]
  intro j hj
  obtain ⟨n, -, rfl⟩ := List.mem_map.1 hj
  simp [AllFloats]

theorem forall₂_both {α β : Type} {R : α → β → Prop} {l : List α} {l' : List β} (h : List.Forall₂ R l l') :
    (∀ b ∈ l', ∃ a ∈ l, R a b) ∧ ∀ a ∈ l, ∃ b ∈ l', R a b := by
  induction h with
  | nil => simp
  | cons h _ ih =>
    obtain ⟨i1, i2⟩ := ih
    constructor
    · intro j hj
      rcases List.mem_cons.1 hj with rfl | hj
      · exact ⟨_, List.mem_cons_self, h⟩
      · obtain ⟨a, ha, e⟩ := i1 j hj; exact ⟨a, List.mem_cons_of_mem _ ha, e⟩
    · intro a ha
      rcases List.mem_cons.1 ha with rfl | ha
      · exact ⟨_, List.mem_cons_self, h⟩
      · obtain ⟨j, hj, e⟩ := i2 a ha; exact ⟨j, List.mem_cons_of_mem _ hj, e⟩

theorem seqE_mem {α β : Type} {f : α → Except Err β} {l : List α} {js : List β} (h : seqE (l.map f) = .ok js) :
    (∀ j ∈ js, ∃ a ∈ l, f a = .ok j) ∧ ∀ a ∈ l, ∃ j ∈ js, f a = .ok j := by
  rw [seqE_eq_ok, List.forall₂_map_left_iff] at h
  exact forall₂_both h

theorem surfs_floats (p : PyF → Prop) {l : List (Option Surf)} {js : List Json} (h : seqE (l.map surfJson) = .ok js) : AllItems p js := by
  rw [allItems_iff]
  intro j hj
  obtain ⟨o, -, ho⟩ := (seqE_mem h).1 j hj
  cases o with
  | none => cases ho
  | some s =>
    cases ho
    simp only [AllFloats, AllPairs, and_true]
    exact ints_floats p _

theorem ext_floats (p : PyF → Prop) {o : Option Ext} {j : Json} (h : extOrNone o = .ok j) : AllFloats p j := by
  cases o with
  | none => cases h; simp [AllFloats]
  | some e =>
    simp only [extOrNone, extJson] at h
    cases h3 : seqE (e.surfaces.map surfJson) with
    | error x => simp [h3, bind, Except.bind] at h
    | ok js =>
      simp only [h3, bind, Except.bind, Except.ok.injEq] at h
      subst h
      have := surfs_floats p h3
      simp [AllFloats, AllPairs, AllItems, this]

theorem cubes_floats_of (p : PyF → Prop) {cs : List Cube} (ih : ∀ c ∈ cs, ∀ j, cubeJson c = .ok j → AllFloats p j) :
    ∀ js, cubesJson cs = .ok js → AllItems p js := by
  induction cs with
  | nil => intro js h; cases h; simp [AllItems]
  | cons c r ihr =>
    intro js h
    rw [cubesJson] at h
    cases h1 : cubeJson c with
    | error x => simp [h1, bind, Except.bind] at h
    | ok a =>
      cases h2 : cubesJson r with
      | error x => simp [h1, h2, bind, Except.bind] at h
      | ok b =>
        simp only [h1, h2, bind, Except.bind, Except.ok.injEq] at h
        subst h
        rw [AllItems]
        exact ⟨ih c (by simp) a h1, ihr (fun c hc => ih c (by simp [hc])) b h2⟩

theorem cube_floats (p : PyF → Prop) (c : Cube) : ∀ j, cubeJson c = .ok j → AllFloats p j := by
  induction c using Cube.ind with
  | h d cs ih =>
  intro j h
  rw [cubeJson] at h
  cases h1 : extOrNone d.ext with
  | error x => simp [h1, bind, Except.bind] at h
  | ok x =>
    cases h2 : cubesJson cs with
    | error x => simp [h1, h2, bind, Except.bind] at h
    | ok js =>
      simp only [h1, h2, bind, Except.bind, Except.ok.injEq] at h
      subst h
      have e1 := ext_floats p h1
      have e2 := cubes_floats_of p ih js h2
      have e3 : AllFloats p (optJson d.material) := by cases d.material <;> simp [optJson, AllFloats]
      have e4 := ints_floats p d.edges
      have e5 := ints_floats p d.texture
      simp [AllFloats, AllPairs, AllItems, e1, e2, e3, e4, e5]

theorem vslot_floats (p : PyF → Prop) (v : VSlot) : AllFloats p v.toJson ↔ p (.fin (1 / 2)) ∧ p (.fin 0) := by
  simp [VSlot.toJson, AllFloats, AllPairs, AllItems, intsJson]

theorem val_floats (p : PyF → Prop) {v : Val} {j : Json} (h : v.toJson = .ok j) : AllFloats p j ↔ ∀ f, v = .flt f → p f := by
  cases v <;> simp only [Val.toJson, Except.ok.injEq, reduceCtorEq] at h <;> subst h <;> simp [AllFloats]

theorem pairs_floats (p : PyF → Prop) {l : List (String × Val)} {ps : List (String × Json)} (h : seqE (l.map pairJson) = .ok ps) :
    (∀ q ∈ ps, AllFloats p q.2) ↔ ∀ q ∈ l, ∀ f, q.2 = .flt f → p f := by
  constructor
  · intro H q hq f hf
    obtain ⟨r, hr, e⟩ := (seqE_mem h).2 q hq
    exact (val_floats p (pairJson_ok e).2).1 (H r hr) f hf
  · intro H r hr
    obtain ⟨q, hq, e⟩ := (seqE_mem h).1 r hr
    exact (val_floats p (pairJson_ok e).2).2 (H q hq)

theorem pairsJson_floats (p : PyF → Prop) {l : List (String × Val)} {j : Json} (h : pairsJson l = .ok j) :
    AllFloats p j ↔ ∀ q ∈ l, ∀ f, q.2 = .flt f → p f := by
  unfold pairsJson at h
  cases hs : seqE (l.map pairJson) with
  | error e => simp [hs, bind, Except.bind] at h
  | ok ps =>
    simp only [hs, bind, Except.bind, Except.ok.injEq] at h
    subst h
    rw [← pairs_floats p hs, AllFloats, allItems_iff]
    constructor
    · intro H q hq
      have := H _ (List.mem_map.2 ⟨q, hq, rfl⟩)
      simp only [AllFloats, AllItems, and_true, true_and] at this
      exact this
    · intro H j hj
      obtain ⟨q, hq, rfl⟩ := List.mem_map.1 hj
      simp only [AllFloats, AllItems, and_true, true_and]
      exact H q hq

theorem entDict_floats (p : PyF → Prop) {d : EntDict} {j : Json} (h : d.toJson = .ok j) (ha : ∀ q ∈ d.attr, ∀ f, q.2 ≠ .flt f) :
    AllFloats p j ↔ p d.position.1 ∧ p d.position.2.1 ∧ p d.position.2.2 := by
  unfold EntDict.toJson at h
  cases hs : seqE (d.attr.map pairJson) with
  | error e => simp [hs, bind, Except.bind] at h
  | ok ps =>
    simp only [hs, bind, Except.bind, Except.ok.injEq] at h
    subst h
    have h1 : ∀ q ∈ ps, AllFloats p q.2 := (pairs_floats p hs).2 fun q hq f hf => absurd hf (ha q hq f)
    have h2 := strs_floats p d.order
    have h3 := ints_floats p d.links
    have h4 := ints_floats p d.reserved
    have h5 : AllFloats p (.obj (ps ++ [("_order", .arr (d.order.map .str))])) := by
      rw [AllFloats, allPairs_iff]
      intro q hq
      rcases List.mem_append.1 hq with hq | hq
      · exact h1 q hq
      · rw [List.mem_singleton] at hq; subst hq; exact h2
    rw [AllFloats]
    simp only [AllPairs, h3, h4, h5, and_true]
    simp [AllFloats, AllItems]

theorem foldl_dset_vals (l : List (String × Val)) : ∀ (d : List (String × Val)), ∀ q ∈ l.foldl (fun d p => dset d p.1 p.2) d,
    q ∈ d ∨ ∃ r ∈ l, r.2 = q.2 := by
  induction l with
  | nil => intro d q hq; exact .inl hq
  | cons a l ih =>
    intro d q hq
    rcases ih _ q hq with h | ⟨r, hr, e⟩
    · rcases mem_dset h with rfl | h
      · exact .inr ⟨a, List.mem_cons_self, rfl⟩
      · exact .inl h
    · exact .inr ⟨r, List.mem_cons_of_mem _ hr, e⟩

theorem ent_no_floats {e : Ent} {d : EntDict} (he : ReadEntOk e) (h : e.toDict false = .ok d) :
    d.position = e.o ∧ ∀ q ∈ d.attr, ∀ f, q.2 ≠ .flt f := by
  have hattr : ∀ v ∈ e.attrs, ∀ f, v ≠ .flt f := by
    obtain ⟨a1, a2⟩ := readEnt_attrs he
    by_cases ht : e.type = 9 ∨ e.type = 3
    · obtain ⟨w, v, -, e1⟩ := a1 ht
      rw [e1]
      simp
    · obtain ⟨v, e1⟩ := a2 ht
      rw [e1]
      simp
  have hz : ∀ q ∈ ((annotations e.type).zip e.attrs).foldl (fun d p => dset d p.1 p.2) ([] : List (String × Val)), ∀ f, q.2 ≠ .flt f := by
    intro q hq f hf
    rcases foldl_dset_vals _ _ q hq with h | ⟨r, hr, e⟩
    · cases h
    · exact hattr r.2 (List.of_mem_zip (a := r.1) (b := r.2) hr).2 f (e.trans hf)
  unfold Ent.toDict at h
  split at h
  · cases h
  · generalize ((annotations e.type).zip e.attrs).foldl (fun d p => dset d p.1 p.2) ([] : List (String × Val)) = attr at h hz
    simp only [bind, Except.bind] at h
    split at h
    · split at h
      · split at h
        · cases h
          refine ⟨rfl, fun q hq => ?_⟩
          rcases mem_dset hq with rfl | hq
          · simp
          · exact hz q hq
        · cases h
      · cases h
      · cases h
    · cases h
      exact ⟨rfl, hz⟩

/-- A property of all floats in a map: positions of entities, numbers in the header and variables, and the two constants that go with every texture
slot. -/
structure FloatsOf (p : PyF → Prop) (m : MapFile) : Prop where
  position : ∀ e ∈ m.ents, p e.o.1 ∧ p e.o.2.1 ∧ p e.o.2.2
  head : ∀ q ∈ m.meta', ∀ f, q.2 = .flt f → p f
  vars : ∀ q ∈ m.mapVars, ∀ f, q.2 = .flt f → p f
  slots : m.vslots ≠ [] → p (.fin (1 / 2)) ∧ p (.fin 0)

theorem decode_flt {v w : Val} (h : decodeIfBytes v = .ok w) (f : PyF) : v = .flt f ↔ w = .flt f := by
  cases v <;> simp only [decodeIfBytes, decodeVal] at h
  all_goals first
    | (cases h; simp; done)
    | (split at h <;> cases h <;> simp)

/-- The floats in a dump are those of the map. -/
theorem dump_floats (p : PyF → Prop) {file : Bytes} {m : MapFile} (h : readMap file = .ok m) {j : Json} (hj : m.toJson none = .ok j) :
    AllFloats p j ↔ FloatsOf p m := by
  obtain ⟨_, _, _, _, _, _, _, _, _, _, ok⟩ := read_ok h
  obtain ⟨d, hd, magic, ver, hs, jm, jv, je, jw, -, -, -, -, -, he, hw, hm, hv, rfl⟩ := (dump_iff h j).1 hj
  obtain ⟨-, -, -, -, -, -, -, h8, h9, hent⟩ := toDict_ok hd
  have i1 := ints_floats p m.texmru
  have i2 := ints_floats p m.chg
  have i3 : AllItems p jw := cubes_floats_of p (fun c _ => cube_floats p c) jw hw
  have f1 := pairsJson_floats p hm
  have f2 := pairsJson_floats p hv
  have f3 : AllItems p je ↔ ∀ e ∈ m.ents, p e.o.1 ∧ p e.o.2.1 ∧ p e.o.2.2 := by
    rw [allItems_iff]
    obtain ⟨key', key⟩ := forall₂_both hent
    constructor
    · intro H e hme
      obtain ⟨g, hg, eg⟩ := key e hme
      obtain ⟨j, hj, ej⟩ := (seqE_mem he).2 g hg
      obtain ⟨e1, e2⟩ := ent_no_floats (ok.ents e hme) eg
      have := (entDict_floats p ej e2).1 (H j hj)
      rwa [e1] at this
    · intro H j hj
      obtain ⟨g, hg, ej⟩ := (seqE_mem he).1 j hj
      obtain ⟨e, hme, eg⟩ := key' g hg
      obtain ⟨e1, e2⟩ := ent_no_floats (ok.ents e hme) eg
      refine (entDict_floats p ej e2).2 ?_
      rw [e1]
      exact H e hme
  have f4 : AllItems p (m.vslots.map VSlot.toJson) ↔ (m.vslots ≠ [] → p (.fin (1 / 2)) ∧ p (.fin 0)) := by
    rw [allItems_iff]
    constructor
    · intro H hne
      obtain ⟨v, l, e⟩ := List.exists_cons_of_ne_nil hne
      exact (vslot_floats p v).1 (H _ (List.mem_map.2 ⟨v, by rw [e]; exact List.mem_cons_self, rfl⟩))
    · intro H j hj
      obtain ⟨v, hv, rfl⟩ := List.mem_map.1 hj
      exact (vslot_floats p v).2 (H (List.ne_nil_of_mem hv))
  have g1 : (∀ q ∈ d.meta', ∀ f, q.2 = .flt f → p f) ↔ ∀ q ∈ m.meta', ∀ f, q.2 = .flt f → p f := by
    obtain ⟨k1, k2⟩ := forall₂_both h8
    constructor
    · intro H q hq f hf
      obtain ⟨r, hr, e⟩ := k2 q hq
      exact H r hr f ((decode_flt e.2 f).1 hf)
    · intro H q hq f hf
      obtain ⟨r, hr, e⟩ := k1 q hq
      exact H r hr f ((decode_flt e.2 f).2 hf)
  have g2 : (∀ q ∈ d.mapVars, ∀ f, q.2 = .flt f → p f) ↔ ∀ q ∈ m.mapVars, ∀ f, q.2 = .flt f → p f := by
    obtain ⟨k1, k2⟩ := forall₂_both h9
    constructor
    · intro H q hq f hf
      obtain ⟨r, hr, e⟩ := k2 q hq
      exact H r hr f ((decode_flt e.2 f).1 hf)
    · intro H q hq f hf
      obtain ⟨r, hr, e⟩ := k1 q hq
      exact H r hr f ((decode_flt e.2 f).2 hf)
  rw [wholeDump, AllFloats]
  simp only [AllPairs, i1, i2, and_true]
  rw [f1, f2, g1, g2]
  simp only [AllFloats, i3, f3, f4, true_and]
  exact ⟨fun ⟨a, b, c, d⟩ => ⟨c, a, b, d⟩, fun ⟨a, b, c, d⟩ => ⟨b, c, a, d⟩⟩

/-! ### ASCII -/

/-- Printable ASCII. -/
def Ascii (c : Char) : Prop := 32 ≤ c.toNat ∧ c.toNat ≤ 126

theorem hexDigit_ascii (n : ℕ) (h : n < 16) : Ascii (hexDigit n) := by
  have : ∀ n : Fin 16, 32 ≤ (hexDigit n).toNat ∧ (hexDigit n).toNat ≤ 126 := by decide
  exact this ⟨n, h⟩

theorem escChar_ascii (c : Char) : ∀ x ∈ escChar c, Ascii x := by
  intro x hx
  unfold escChar at hx
  split_ifs at hx with h1 h2 h3 h4 h5 h6 h7 h8
  all_goals try (simp only [List.mem_cons, List.not_mem_nil, or_false] at hx; rcases hx with rfl | rfl <;> (unfold Ascii; decide))
  · rw [List.mem_singleton] at hx; subst hx; exact h8
  · obtain ⟨u, -, hx⟩ := List.mem_flatMap.1 hx
    simp only [hex4, List.mem_cons, List.not_mem_nil, or_false] at hx
    rcases hx with rfl | rfl | rfl | rfl | rfl | rfl
    · unfold Ascii; decide
    · unfold Ascii; decide
    all_goals exact hexDigit_ascii _ (Nat.mod_lt _ (by norm_num))

theorem strText_ascii (s : String) : ∀ x ∈ strText s, Ascii x := by
  intro x hx
  simp only [strText, List.mem_cons, List.mem_append, List.not_mem_nil, or_false, List.mem_flatMap] at hx
  rcases hx with rfl | ⟨c, -, hx⟩ | rfl
  · unfold Ascii; decide
  · exact escChar_ascii c x hx
  · unfold Ascii; decide

theorem num_ascii (c : Char) (h : isNum c = true) : Ascii c := by
  unfold isNum Char.isDigit at h
  simp only [Bool.or_eq_true, Bool.and_eq_true, decide_eq_true_eq, beq_iff_eq] at h
  unfold Ascii
  rcases h with ((((⟨h1, h2⟩ | rfl) | rfl) | rfl) | rfl) | rfl
  · have : c.toNat = c.val.toNat := rfl
    rw [ge_iff_le, UInt32.le_iff_toNat_le] at h1
    rw [UInt32.le_iff_toNat_le] at h2
    have e1 : '0'.val.toNat = 48 := rfl
    have e2 : '9'.val.toNat = 57 := rfl
    rw [e1] at h1
    rw [e2] at h2
    omega
  all_goals decide

theorem intText_ascii (n : ℤ) : ∀ x ∈ intText n, Ascii x := by
  intro x hx
  cases n with
  | ofNat n => exact num_ascii x (List.all_eq_true.1 (natText_shape n).2.2.1 x hx)
  | negSucc n =>
    rw [intText] at hx
    rcases List.mem_cons.1 hx with rfl | hx
    · unfold Ascii; decide
    · exact num_ascii x (List.all_eq_true.1 (natText_shape (n + 1)).2.2.1 x hx)

theorem floatText_ascii {f : PyF} (h : FloatOk repr num f) : ∀ x ∈ floatText repr f, Ascii x := by
  intro x hx
  by_cases hf : finite f = true
  · rw [floatText_ok repr hf] at hx
    have := h.shape hf
    unfold numShape at this
    simp only [Bool.and_eq_true] at this
    exact num_ascii x (List.all_eq_true.1 this.1.1 x hx)
  · have d : ∀ x ∈ ['-', 'I', 'n', 'f', 'i', 'n', 'i', 't', 'y', 'N', 'a', 'N'], 32 ≤ x.toNat ∧ x.toNat ≤ 126 := by decide
    apply d x
    cases f with
    | nan b n => simp only [floatText, List.mem_cons] at hx ⊢; tauto
    | inf b => cases b <;> (simp only [floatText, List.mem_cons] at hx ⊢; tauto)
    | _ => exact absurd rfl hf

mutual
theorem chars_ascii (j : Json) (h : AllFloats (FloatOk repr num) j) : ∀ x ∈ j.chars repr, Ascii x := by
  intro x hx
  have d : ∀ x ∈ ['n', 'u', 'l', 't', 'r', 'e', 'f', 'a', 's', '[', ']', '{', '}'], 32 ≤ x.toNat ∧ x.toNat ≤ 126 := by decide
  cases j with
  | null => apply d x; simp only [Json.chars, List.mem_cons] at hx ⊢; tauto
  | bool b => apply d x; cases b <;> (simp only [Json.chars, List.mem_cons] at hx ⊢; tauto)
  | int n => rw [Json.chars] at hx; exact intText_ascii n x hx
  | flt f => rw [Json.chars] at hx; rw [AllFloats] at h; exact floatText_ascii h x hx
  | str s => rw [Json.chars] at hx; exact strText_ascii s x hx
  | arr l =>
    rw [AllFloats] at h
    cases l with
    | nil => apply d x; simp only [Json.chars, itemChars, List.nil_append, List.mem_cons] at hx ⊢; tauto
    | cons j l =>
      rw [AllItems] at h
      have h1 := chars_ascii j h.1
      have h2 := moreItems_ascii l h.2
      simp only [Json.chars, itemChars, List.mem_cons, List.mem_append, List.not_mem_nil, or_false] at hx
      rcases hx with rfl | (hx | hx) | rfl
      · exact d _ (by simp)
      · exact h1 x hx
      · exact h2 x hx
      · exact d _ (by simp)
  | obj l =>
    rw [AllFloats] at h
    cases l with
    | nil => apply d x; simp only [Json.chars, pairChars, List.nil_append, List.mem_cons] at hx ⊢; tauto
    | cons j l =>
      obtain ⟨k, j⟩ := j
      rw [AllPairs] at h
      have h1 := chars_ascii j h.1
      have h2 := morePairs_ascii l h.2
      simp only [Json.chars, pairChars, List.mem_cons, List.mem_append, List.not_mem_nil, or_false] at hx
      rcases hx with rfl | (hx | rfl | rfl | hx | hx) | rfl
      · exact d _ (by simp)
      · exact strText_ascii k x hx
      · unfold Ascii; decide
      · unfold Ascii; decide
      · exact h1 x hx
      · exact h2 x hx
      · exact d _ (by simp)
theorem moreItems_ascii (l : List Json) (h : AllItems (FloatOk repr num) l) : ∀ x ∈ moreItems repr l, Ascii x := by
  intro x hx
  cases l with
  | nil => rw [moreItems] at hx; cases hx
  | cons j l =>
    rw [AllItems] at h
    have h1 := chars_ascii j h.1
    have h2 := moreItems_ascii l h.2
    simp only [moreItems, List.mem_cons, List.mem_append] at hx
    rcases hx with rfl | rfl | hx | hx
    · unfold Ascii; decide
    · unfold Ascii; decide
    · exact h1 x hx
    · exact h2 x hx
theorem morePairs_ascii (l : List (String × Json)) (h : AllPairs (FloatOk repr num) l) : ∀ x ∈ morePairs repr l, Ascii x := by
  intro x hx
  cases l with
  | nil => rw [morePairs] at hx; cases hx
  | cons j l =>
    obtain ⟨k, j⟩ := j
    rw [AllPairs] at h
    have h1 := chars_ascii j h.1
    have h2 := morePairs_ascii l h.2
    simp only [morePairs, List.mem_cons, List.mem_append] at hx
    rcases hx with rfl | rfl | hx | rfl | rfl | hx | hx
    · unfold Ascii; decide
    · unfold Ascii; decide
    · exact strText_ascii k x hx
    · unfold Ascii; decide
    · unfold Ascii; decide
    · exact h1 x hx
    · exact h2 x hx
end

/-! ### C102 -/

/-- **C102, full statement** (false, see below): for every map that was read and can be dumped, what `to_json` prints is a JSON text whose value
is the dump. The text of finite floats is assumed to be as Python's. -/
def C102_json : Prop := ∀ (repr : PyF → List Char) (num : List Char → Option PyF) (file : Bytes) (m : MapFile) (text : List Char),
  readMap file = .ok m → FloatsOf (FloatOk repr num) m → m.jsonText repr none = .ok text →
    ∃ j, m.toJson none = .ok j ∧ readJson num text = some j

theorem jsonText_ok {m : MapFile} {s : Option String} {text : List Char} (h : m.jsonText repr s = .ok text) :
    ∃ j, m.toJson s = .ok j ∧ text = j.chars repr := by
  unfold MapFile.jsonText at h
  cases hj : m.toJson s with
  | error e => simp [hj, bind, Except.bind] at h
  | ok j => simp only [hj, bind, Except.bind, Except.ok.injEq] at h; exact ⟨j, rfl, h.symm⟩

/-- **C102, the part that holds**: what is printed is one line of printable ASCII; it is a JSON text exactly when all positions, numbers in the header and
variables of the map are finite, and then its value is the dump. Missing: maps with infinities or NaN, for which the text is not JSON. -/
theorem C102_json_partial (repr : PyF → List Char) (num : List Char → Option PyF) (file : Bytes) (m : MapFile) (text : List Char)
    (h : readMap file = .ok m) (hf : FloatsOf (FloatOk repr num) m) (ht : m.jsonText repr none = .ok text) :
    ∃ j, m.toJson none = .ok j ∧ (∀ c ∈ text, Ascii c) ∧
      (FloatsOf (fun f => finite f = true) m → readJson num text = some j) ∧
      (¬ FloatsOf (fun f => finite f = true) m → readJson num text = none) := by
  obtain ⟨j, hj, rfl⟩ := jsonText_ok ht
  have ha := (dump_floats (FloatOk repr num) h hj).2 hf
  refine ⟨j, hj, chars_ascii j ha, fun hn => ?_, fun hn => ?_⟩
  · rw [C102_text repr num j ha, if_pos ((finiteIn_iff j).2 ((dump_floats _ h hj).2 hn))]
  · rw [C102_text repr num j ha, if_neg fun hc => hn ((dump_floats _ h hj).1 ((finiteIn_iff j).1 hc))]

/-- **C102, a section**: the same for `--section`. -/
theorem C102_section (repr : PyF → List Char) (num : List Char → Option PyF) (m : MapFile) (s : Option String) (text : List Char) (j : Json)
    (hj : m.toJson s = .ok j) (hf : AllFloats (FloatOk repr num) j) (ht : m.jsonText repr s = .ok text) :
    (∀ c ∈ text, Ascii c) ∧ readJson num text = if finiteIn j then some j else none := by
  obtain ⟨j', hj', rfl⟩ := jsonText_ok ht
  rw [hj] at hj'
  cases hj'
  exact ⟨chars_ascii j hf, C102_text repr num j hf⟩

/-- **C102, no two maps**: maps that print the same text are the same but for the merge flags of cubes (see C93). -/
theorem C102_same (repr : PyF → List Char) (num : List Char → Option PyF) (file file' : Bytes) (m m' : MapFile) (text : List Char)
    (h : readMap file = .ok m) (h' : readMap file' = .ok m') (hf : FloatsOf (FloatOk repr num) m) (hf' : FloatsOf (FloatOk repr num) m')
    (hn : FloatsOf (fun f => finite f = true) m) (ht : m.jsonText repr none = .ok text) (ht' : m'.jsonText repr none = .ok text) :
    { m' with world := m'.world.map unmerged } = { m with world := m.world.map unmerged } := by
  obtain ⟨j, hj, -, h1, -⟩ := C102_json_partial repr num file m text h hf ht
  obtain ⟨j', hj', -, h2, h3⟩ := C102_json_partial repr num file' m' text h' hf' ht'
  have e := h1 hn
  by_cases hn' : FloatsOf (fun f => finite f = true) m'
  · rw [h2 hn'] at e
    cases e
    exact C93_same file file' m m' h h' _ hj hj'
  · rw [h3 hn'] at e
    cases e

/-! ### Examples -/

/-- A way to write and read floats. -/
def floatCode : PyF → ℕ
  | .fin q => Encodable.encode q + 1
  | _ => 0

/-- See `floatCode`. -/
def someRepr (f : PyF) : List Char := natText (floatCode f) ++ ['.', '0']

/-- See `floatCode`. -/
def someNum (t : List Char) : Option PyF :=
  match natVal (t.takeWhile Char.isDigit) with
  | 0 => some .negZero
  | n + 1 => (Encodable.decode n : Option ℚ).map .fin

theorem floatOk_some (f : PyF) : FloatOk someRepr someNum f := by
  obtain ⟨h1, h2, h3, h4⟩ := natText_shape (floatCode f)
  have hd : (natText (floatCode f)).all Char.isDigit = true := by
    unfold natShape at h1
    simp only [Bool.and_eq_true] at h1
    exact h1.1.2
  have ht : ∀ t : List Char, t.all Char.isDigit = true →
      (t ++ ['.', '0']).takeWhile Char.isDigit = t ∧ (t ++ ['.', '0']).dropWhile Char.isDigit = ['.', '0'] := by
    intro t
    induction t with
    | nil => intro _; decide
    | cons c t ih =>
      intro h
      rw [List.all_cons, Bool.and_eq_true] at h
      obtain ⟨i1, i2⟩ := ih h.2
      simp [h.1, i1, i2]
  obtain ⟨t1, t2⟩ := ht _ hd
  have hne : natText (floatCode f) ≠ [] := by
    intro hn
    rw [hn] at h1
    exact absurd h1 (by decide)
  have hu : unsigned (someRepr f) = someRepr f := by
    obtain ⟨c, t, e⟩ := List.exists_cons_of_ne_nil hne
    rw [e] at h4
    unfold unsigned someRepr
    rw [e, if_neg (by simpa using h4)]
  refine ⟨fun _ => ?_, fun _ => ?_, fun hf => ?_⟩
  · unfold numShape
    rw [hu]
    unfold someRepr
    rw [t1, t2, h1, List.all_append, h3]
    decide
  · rw [hu]
    unfold natShape someRepr
    rw [List.all_append]
    have : (['.', '0'].all Char.isDigit) = false := by decide
    rw [this]
    simp
  · unfold someNum someRepr
    rw [t1, h2]
    cases f with
    | fin q => simp [floatCode]
    | negZero => rfl
    | nan b n => cases hf
    | inf b => cases hf

theorem floats_some (m : MapFile) : FloatsOf (FloatOk someRepr someNum) m :=
  ⟨fun _ _ => ⟨floatOk_some _, floatOk_some _, floatOk_some _⟩, fun _ _ _ _ => floatOk_some _, fun _ _ _ _ => floatOk_some _,
    fun _ => ⟨floatOk_some _, floatOk_some _⟩⟩

/-- A file with a light whose first coordinate is NaN. -/
def nanFile : Bytes := fileOf MAPZ (i32 45 ++ (i32 44 ++ i32 16)) 1 (List.replicate 28 0) 0
  (le 2 0 ++ ([0, 0, 192, 127] ++ (List.replicate 8 0 ++ ([1, 0, 0, 0] ++ (i32 6 ++ (List.replicate 24 0 ++ (i32 0 ++ [5])))))))

/-- The same with a light at the origin. -/
def originFile : Bytes := fileOf MAPZ (i32 45 ++ (i32 44 ++ i32 16)) 1 (List.replicate 28 0) 0
  (le 2 0 ++ (List.replicate 12 0 ++ ([1, 0, 0, 0] ++ (i32 6 ++ (List.replicate 24 0 ++ (i32 0 ++ [5]))))))

theorem file_dumps (file : Bytes) (b : Bool) (h : (match readMap file with
    | .ok m =>
      match m.toJson none with
      | .ok j => finiteIn j == b
      | .error _ => false
    | .error _ => false) = true) :
    ∃ m j, readMap file = .ok m ∧ m.toJson none = .ok j ∧ finiteIn j = b ∧ m.jsonText someRepr none = .ok (j.chars someRepr) := by
  cases hr : readMap file with
  | error e => rw [hr] at h; cases h
  | ok m =>
    rw [hr] at h
    cases hj : m.toJson none with
    | error e => simp [hj] at h
    | ok j =>
      simp only [hj, beq_iff_eq] at h
      exact ⟨m, j, rfl, hj, h, by simp [MapFile.jsonText, hj, bind, Except.bind]⟩

/-- C102 is false: a map with a light at a coordinate that is not a number. -/
theorem C102_json_false : ¬ C102_json := by
  intro H
  obtain ⟨m, j, hr, hj, hf, ht⟩ := file_dumps nanFile false (by decide +kernel)
  obtain ⟨j', hj', hc⟩ := H someRepr someNum nanFile m _ hr (floats_some m) ht
  rw [hj] at hj'
  cases hj'
  rw [C102_text someRepr someNum j ((dump_floats _ hr hj).2 (floats_some m)), hf] at hc
  cases hc

/-- The hypotheses hold for a map with a light at the origin, and its text is JSON. -/
example : ∃ m text j, readMap originFile = .ok m ∧ m.ents ≠ [] ∧ FloatsOf (FloatOk someRepr someNum) m ∧ m.jsonText someRepr none = .ok text ∧
    readJson someNum text = some j := by
  obtain ⟨m, j, hr, hj, hf, ht⟩ := file_dumps originFile true (by decide +kernel)
  refine ⟨m, _, j, hr, ?_, floats_some m, ht, ?_⟩
  · rintro he
    have h : (match readMap originFile with
      | .ok m => m.ents.isEmpty
      | .error _ => true) = false := by decide +kernel
    rw [hr] at h
    simp [he] at h
  · rw [C102_text someRepr someNum j ((dump_floats _ hr hj).2 (floats_some m)), hf]
    rfl

/-- The text of a small value. -/
example : (Json.obj [("a", .arr [.int (-12), .null, .bool true]), ("b\n", .str "\"é😀")]).chars someRepr =
    "{\"a\": [-12, null, true], \"b\\n\": \"\\\"\\u00e9\\ud83d\\ude00\"}".toList := by decide +kernel

end Verif.Props
