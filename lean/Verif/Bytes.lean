import Verif.Py
import Mathlib.Data.Int.Log

/-!
Model of the `struct` and stream primitives used by /repo/redeclipse/__init__.py. `struct.pack` formats
without a prefix use the machine's byte order; it is taken to be little-endian (x86, ARM). The gzip
layer is not modelled: a file is the list of bytes inside the gzip stream.
-/

namespace Verif

/-- The contents of a file or of part of it (__init__.py 85-649). -/
abbrev Bytes := List UInt8

/-! ### Little-endian numbers -/

/-- `k` bytes of `n`, least significant first (Python `struct`, used by __init__.py 148-177). -/
def le : ℕ → ℕ → Bytes
  | 0, _ => []
  | k + 1, n => UInt8.ofNat (n % 256) :: le k (n / 256)

/-- The number written in a list of bytes (Python `struct`, used by __init__.py 341-370). -/
def unle : Bytes → ℕ
  | [] => 0
  | b :: r => b.toNat + 256 * unle r

/-! ### Python floats

A float is exact: a rational, or one of the special values. Only values that survive a conversion from
binary32 or that are rationals occur. `-0.0` is kept apart because it has its own bit pattern. -/

/-- A Python `float`, as stored in maps (__init__.py 168-169, 353-355). -/
inductive PyF where
  | fin (q : ℚ)
  | negZero
  | inf (neg : Bool)
  | nan (neg : Bool) (payload : ℕ)
  deriving DecidableEq, Repr

/-- `x / 4` on a float (__init__.py 523-548). -/
def PyF.div4 : PyF → PyF
  | .fin q => .fin (q / 4)
  | f => f

/-- `x * 4` on a float (entities/__init__.py 8). -/
def PyF.mul4 : PyF → PyF
  | .fin q => .fin (q * 4)
  | f => f

/-- Bits (without the sign) of the binary32 number nearest to `a > 0`, ties to even. With
`e = max (floor (log2 a)) (-126)` and `m` the rounded multiple of `2^(e-23)`, the bits are
`(e + 126) * 2^23 + m`, for normal and subnormal numbers alike, also when rounding carries. Used by __init__.py 168-169. -/
def f32mag (a : ℚ) : ℤ :=
  let e := max (Int.log 2 a) (-126)
  (e + 126) * 2 ^ 23 + pyRound (a / (2 : ℚ) ^ (e - 23))

/-- `struct.pack('f', x)` as a 32-bit number (CPython `PyFloat_Pack4`); OverflowError when a finite
value rounds out of range. NaNs come out quiet. Integers beyond `2^53` are first rounded to a double by
CPython; that extra step is not modelled. Used by __init__.py 168-169. -/
def f32enc : PyF → Except Err ℕ
  | .fin q =>
    if q = 0 then .ok 0
    else
      let m := (f32mag |q|).toNat
      if 255 * 2 ^ 23 ≤ m then .error .overflow
      else .ok (if q < 0 then 2 ^ 31 + m else m)
  | .negZero => .ok (2 ^ 31)
  | .inf neg => .ok ((if neg then 2 ^ 31 else 0) + 255 * 2 ^ 23)
  | .nan neg p => .ok ((if neg then 2 ^ 31 else 0) + 255 * 2 ^ 23 + (2 ^ 22 + p % 2 ^ 22))

/-- `struct.unpack('f', ..)` of a 32-bit number (CPython `PyFloat_Unpack4`), used by __init__.py 353-355. -/
def f32dec (b : ℕ) : PyF :=
  let neg : Bool := b / 2 ^ 31 % 2 == 1
  let E : ℕ := b / 2 ^ 23 % 256
  let M : ℕ := b % 2 ^ 23
  if E = 255 then
    if M = 0 then .inf neg else .nan neg (M % 2 ^ 22)
  else
    let mag : ℚ := if E = 0 then (M : ℚ) * (2 : ℚ) ^ (-149 : ℤ)
      else ((2 ^ 23 + M : ℕ) : ℚ) * (2 : ℚ) ^ ((E : ℤ) - 150)
    if neg then (if mag = 0 then .negZero else .fin (-mag)) else .fin mag

/-! ### Writer: output so far and the exception that stopped it, if any -/

/-- What a writing method has written and the exception that ended it (__init__.py 85-266). -/
structure W where
  out : Bytes
  err : Option Err
  deriving DecidableEq, Repr

namespace W
/-- Output without an exception (__init__.py 85-266: the writing methods). -/
def ok (b : Bytes) : W := ⟨b, none⟩
/-- An exception before any output (__init__.py 85-266: the writing methods). -/
def fail (e : Err) : W := ⟨[], some e⟩
/-- Sequencing: an exception stops the output (__init__.py 85-266: the writing methods). -/
def andThen (a b : W) : W :=
  match a.err with
  | some e => ⟨a.out, some e⟩
  | none => ⟨a.out ++ b.out, b.err⟩
/-- `for x in l: f(x)` (__init__.py 85-266: the writing methods). -/
def each {α : Type} (f : α → W) : List α → W
  | [] => ok []
  | x :: r => (f x).andThen (each f r)
end W

/-- `struct.pack('i', n)` (__init__.py 157-163). -/
def packI (n : ℤ) : W :=
  if -2 ^ 31 ≤ n ∧ n < 2 ^ 31 then .ok (le 4 (n % 2 ^ 32).toNat) else .fail .struct

/-- `_write_ushort` (__init__.py 165-166). -/
def packH (n : ℤ) : W := if 0 ≤ n ∧ n < 2 ^ 16 then .ok (le 2 n.toNat) else .fail .struct

/-- `_write_char` (__init__.py 151-152). -/
def packB (n : ℤ) : W := if 0 ≤ n ∧ n < 256 then .ok (le 1 n.toNat) else .fail .struct

/-- `str.encode(chr(n))`: the exception of `chr` or of the encoding, else the bytes. Only the first byte
of code points below 128 is ever used; longer encodings are represented by two zero bytes (__init__.py 154-155). -/
def chrBytes (n : ℤ) : Except Err Bytes :=
  if n < -2 ^ 31 ∨ 2 ^ 31 ≤ n then .error .overflow
  else if n < 0 ∨ 0x10FFFF < n then .error .value
  else if n < 128 then .ok [UInt8.ofNat n.toNat]
  else if 0xD800 ≤ n ∧ n ≤ 0xDFFF then .error .value
  else .ok [0, 0]

/-- `struct.pack('c', b)`: exactly one byte (__init__.py 151-155, 182-186). -/
def packC (b : Bytes) : W := if b.length = 1 then .ok b else .fail .struct

/-- `_write_int_as_chr` (__init__.py 154-155). -/
def writeChr (n : ℤ) : W :=
  match chrBytes n with
  | .error e => .fail e
  | .ok b => packC b

/-- `_write_float` (__init__.py 168-169). -/
def packF (f : PyF) : W :=
  match f32enc f with
  | .error e => .fail e
  | .ok n => .ok (le 4 n)

/-! ### Reader: consumes a list of bytes -/

/-- A reader (`MapParser` with `self.bytes[self.index:]` as state) (__init__.py 327-370). -/
def P (α : Type) := Bytes → Except Err (α × Bytes)

namespace P
variable {α β : Type}
/-- Return without reading (Python). -/
def pure' (a : α) : P α := fun s => .ok (a, s)
/-- One reading after the other (Python). -/
def bind' (p : P α) (f : α → P β) : P β := fun s =>
  match p s with
  | .error e => .error e
  | .ok (a, r) => f a r
instance : Monad P := { pure := pure', bind := bind' }
/-- `raise` (__init__.py 327-649: the reading methods). -/
def fail (e : Err) : P α := fun _ => .error e
/-- Turn a computation that may raise into a reader that consumes nothing (__init__.py 327-649: the reading methods). -/
def lift (x : Except Err α) : P α := fun s =>
  match x with
  | .error e => .error e
  | .ok a => .ok (a, s)
/-- `struct.unpack` of a slice of `n` bytes: struct.error when the slice is shorter
(__init__.py 336-339). -/
def bytes (n : ℕ) : P Bytes := fun s =>
  if s.length < n then .error .struct else .ok (s.take n, s.drop n)
/-- `for i in range(n): l.append(p())` (__init__.py 327-649: the loops of the reading methods). -/
def times (p : P α) : ℕ → P (List α)
  | 0 => pure []
  | n + 1 => do
    let a ← p
    let r ← times p n
    pure (a :: r)
end P

/-- `_read_int` (__init__.py 341-343). -/
def readInt : P ℤ := do
  let b ← P.bytes 4
  pure (if unle b < 2 ^ 31 then (unle b : ℤ) else (unle b : ℤ) - 2 ^ 32)

/-- `_read_char` (__init__.py 345-347). -/
def readChar : P ℤ := do
  let b ← P.bytes 1
  pure (unle b : ℤ)

/-- `_read_ushort` (__init__.py 357-359). -/
def readUshort : P ℤ := do
  let b ← P.bytes 2
  pure (unle b : ℤ)

/-- `_read_float` (__init__.py 353-355). -/
def readFloat : P PyF := do
  let b ← P.bytes 4
  pure (f32dec (unle b))

/-- `_read_str(strlen, null)` (__init__.py 361-370). A negative width is a bad struct format. -/
def readStr (n : ℤ) (null : Bool) : P Bytes :=
  let k := if null then n + 1 else n
  if k < 0 then P.fail .struct
  else do
    let b ← P.bytes k.toNat
    pure (if null then b.dropLast else b)

end Verif
