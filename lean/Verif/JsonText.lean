import Verif.Json
import Mathlib.Data.Nat.Digits.Defs

/-!
The text that `json.dump` and `simplejson.dumps` make of a JSON value, with their default settings (`ensure_ascii`, separators `", "` and
`": "`, no indentation), as used by /repo/redeclipse/cli/to_json.py 18-21 and /repo/redeclipse/cli/__init__.py 66. These libraries are not
part of the repository; this is a model of their documented output.
-/

namespace Verif

/-- A hexadecimal digit (`json`, called in cli/to_json.py 18-20 and cli/__init__.py 66). -/
def hexDigit (n : ℕ) : Char := if n < 10 then Char.ofNat (48 + n) else Char.ofNat (87 + n)

/-- `'{0:04x}'.format(n)` for a 16-bit number (`json`, called in cli/to_json.py 18-20 and cli/__init__.py 66). -/
def hex4 (n : ℕ) : List Char := [hexDigit (n / 4096 % 16), hexDigit (n / 256 % 16), hexDigit (n / 16 % 16), hexDigit (n % 16)]

/-- The UTF-16 code units of a character: characters beyond the basic plane become a surrogate pair (`json`, called in cli/to_json.py 18-20 and cli/__init__.py 66). -/
def utf16 (c : Char) : List ℕ :=
  if c.toNat < 65536 then [c.toNat] else [55296 + (c.toNat - 65536) / 1024, 56320 + (c.toNat - 65536) % 1024]

/-- A character inside a JSON string (`encode_basestring_ascii`) (`json`, called in cli/to_json.py 18-20 and cli/__init__.py 66). -/
def escChar (c : Char) : List Char :=
  if c = '"' then ['\\', '"']
  else if c = '\\' then ['\\', '\\']
  else if c = '\n' then ['\\', 'n']
  else if c = '\r' then ['\\', 'r']
  else if c = '\t' then ['\\', 't']
  else if c = Char.ofNat 12 then ['\\', 'f']
  else if c = Char.ofNat 8 then ['\\', 'b']
  else if 32 ≤ c.toNat ∧ c.toNat ≤ 126 then [c]
  else (utf16 c).flatMap fun u => '\\' :: 'u' :: hex4 u

/-- A JSON string (`json`, called in cli/to_json.py 18-20 and cli/__init__.py 66). -/
def strText (s : String) : List Char := '"' :: (s.toList.flatMap escChar ++ ['"'])

/-- `str(n)` for a number that is not negative (`json`, called in cli/to_json.py 18-20 and cli/__init__.py 66). -/
def natText (n : ℕ) : List Char := if n = 0 then ['0'] else (Nat.digits 10 n).reverse.map fun d => Char.ofNat (48 + d)

/-- `str(n)` (`json`, called in cli/to_json.py 18-20 and cli/__init__.py 66). -/
def intText : ℤ → List Char
  | .ofNat n => natText n
  | .negSucc n => '-' :: natText (n + 1)

/-- A float: `repr` for finite ones, which is a parameter; the others have names that are not JSON. Simplejson from version 3.19 on
raises ValueError for these instead (`json`, called in cli/to_json.py 18-20 and cli/__init__.py 66). -/
def floatText (repr : PyF → List Char) : PyF → List Char
  | .nan _ _ => ['N', 'a', 'N']
  | .inf false => ['I', 'n', 'f', 'i', 'n', 'i', 't', 'y']
  | .inf true => ['-', 'I', 'n', 'f', 'i', 'n', 'i', 't', 'y']
  | f => repr f

mutual
/-- The text of a value (`json`, called in cli/to_json.py 18-20 and cli/__init__.py 66). -/
def Json.chars (repr : PyF → List Char) : Json → List Char
  | .null => ['n', 'u', 'l', 'l']
  | .bool true => ['t', 'r', 'u', 'e']
  | .bool false => ['f', 'a', 'l', 's', 'e']
  | .int n => intText n
  | .flt f => floatText repr f
  | .str s => strText s
  | .arr l => '[' :: (itemChars repr l ++ [']'])
  | .obj l => '{' :: (pairChars repr l ++ ['}'])
/-- The items of an array (`json`, called in cli/to_json.py 18-20 and cli/__init__.py 66). -/
def itemChars (repr : PyF → List Char) : List Json → List Char
  | [] => []
  | j :: r => j.chars repr ++ moreItems repr r
/-- The items after the first one (`json`, called in cli/to_json.py 18-20 and cli/__init__.py 66). -/
def moreItems (repr : PyF → List Char) : List Json → List Char
  | [] => []
  | j :: r => ',' :: ' ' :: (j.chars repr ++ moreItems repr r)
/-- The members of an object (`json`, called in cli/to_json.py 18-20 and cli/__init__.py 66). -/
def pairChars (repr : PyF → List Char) : List (String × Json) → List Char
  | [] => []
  | (k, j) :: r => strText k ++ ':' :: ' ' :: (j.chars repr ++ morePairs repr r)
/-- The members after the first one (`json`, called in cli/to_json.py 18-20 and cli/__init__.py 66). -/
def morePairs (repr : PyF → List Char) : List (String × Json) → List Char
  | [] => []
  | (k, j) :: r => ',' :: ' ' :: (strText k ++ ':' :: ' ' :: (j.chars repr ++ morePairs repr r))
end

/-- What `to_json` writes to its output (cli/to_json.py 18-21). -/
def MapFile.jsonText (repr : PyF → List Char) (m : MapFile) (section' : Option String) : Except Err (List Char) := do
  let j ← m.toJson section'
  .ok (j.chars repr)

end Verif
