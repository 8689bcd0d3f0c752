import Verif.PyVal
import Mathlib.Data.Nat.Digits.Defs

/-!
# Model of the canonical JSON text behind every fingerprint

`json.dumps(obj, sort_keys=True, separators=(",", ":"), ensure_ascii=...)` as used in
`src/modssc/sampling/fingerprint.py:9-11` (`stable_hash`, `ensure_ascii=True`),
`src/modssc/graph/fingerprint.py:33-36` (`canonical_json`, `True`),
`src/modssc/preprocess/fingerprint.py:9-14` (`stable_json_dumps`, `False`) and
`src/modssc/data_loader/types.py:87-93,147-153` (`fingerprint`, `True`).

Texts are lists of characters.  Simplifications: dictionaries have string keys; strings contain no
lone surrogates (Lean's `Char`); NaN and infinities are excluded.
-/

namespace ModSSC.Json
open ModSSC

/-- One lower-case hexadecimal digit. -/
def hexDigit (n : Nat) : Char :=
  if n < 10 then Char.ofNat (48 + n) else Char.ofNat (87 + n)

/-- `'\\u{0:04x}'.format(n)` (CPython `json/encoder.py`, external). -/
def unicodeEscape (n : Nat) : List Char :=
  ['\\', 'u', hexDigit (n / 4096 % 16), hexDigit (n / 256 % 16), hexDigit (n / 16 % 16), hexDigit (n % 16)]

/-- Escape of one character inside a JSON string (CPython `json/encoder.py`, external: `ESCAPE_DCT`,
`py_encode_basestring_ascii`, `py_encode_basestring`). -/
def escape (ascii : Bool) (c : Char) : List Char :=
  if c = '"' then ['\\', '"']
  else if c = '\\' then ['\\', '\\']
  else if c = '\n' then ['\\', 'n']
  else if c = '\r' then ['\\', 'r']
  else if c = '\t' then ['\\', 't']
  else if c.toNat = 8 then ['\\', 'b']
  else if c.toNat = 12 then ['\\', 'f']
  else if c.toNat < 32 ∨ (ascii = true ∧ 126 < c.toNat) then
    if c.toNat < 65536 then unicodeEscape c.toNat
    else
      let n := c.toNat - 65536
      unicodeEscape (55296 + n / 1024) ++ unicodeEscape (56320 + n % 1024)
  else [c]

/-- A JSON string literal. -/
def strText (ascii : Bool) (s : String) : List Char :=
  '"' :: (s.toList.flatMap (escape ascii) ++ ['"'])

/-- Decimal text of a natural number (`int.__repr__`). -/
def natText (n : Nat) : List Char :=
  if n = 0 then ['0'] else ((Nat.digits 10 n).map (fun d => Char.ofNat (48 + d))).reverse

/-- Decimal text of an integer. -/
def intText (i : Int) : List Char :=
  if i < 0 then '-' :: natText i.natAbs else natText i.natAbs

/-- Insertion of one item by key. -/
def keySort (l : List (String × List Char)) : List (String × List Char) :=
  l.insertionSort (fun a b => a.1 ≤ b.1)

/-- The members of an object after the first, and the closing brace. -/
def objTail (ascii : Bool) : List (String × List Char) → List Char
  | [] => ['}']
  | (k, t) :: rest => ',' :: (strText ascii k ++ ':' :: (t ++ objTail ascii rest))

/-- An object from its key-sorted, already rendered members. -/
def objText (ascii : Bool) : List (String × List Char) → List Char
  | [] => ['{', '}']
  | (k, t) :: rest => '{' :: (strText ascii k ++ ':' :: (t ++ objTail ascii rest))

mutual
/-- Canonical text of a value.  `floatText` is `float.__repr__` (external). -/
def text (floatText : Rat → List Char) (ascii : Bool) : PyVal → List Char
  | .none => ['n', 'u', 'l', 'l']
  | .bool true => ['t', 'r', 'u', 'e']
  | .bool false => ['f', 'a', 'l', 's', 'e']
  | .int i => intText i
  | .flt q => floatText q
  | .str s => strText ascii s
  | .list l => '[' :: listText floatText ascii l
  | .dict d => objText ascii (keySort (members floatText ascii d))

/-- List items and the closing bracket. -/
def listText (floatText : Rat → List Char) (ascii : Bool) : List PyVal → List Char
  | [] => [']']
  | v :: rest => text floatText ascii v ++ listTail floatText ascii rest

/-- Items after the first. -/
def listTail (floatText : Rat → List Char) (ascii : Bool) : List PyVal → List Char
  | [] => [']']
  | v :: rest => ',' :: (text floatText ascii v ++ listTail floatText ascii rest)

/-- Rendered members in insertion order. -/
def members (floatText : Rat → List Char) (ascii : Bool) :
    List (String × PyVal) → List (String × List Char)
  | [] => []
  | (k, v) :: rest => (k, text floatText ascii v) :: members floatText ascii rest
end

/-- `stable_hash` / `fingerprint_dict` / `fingerprint`: a hash function applied to the canonical
text (UTF-8 encoding is injective and left out). -/
def fingerprint {H : Type} (hash : List Char → H) (floatText : Rat → List Char) (ascii : Bool)
    (v : PyVal) : H := hash (text floatText ascii v)

/-- Text hashed by `src/modssc/sampling/fingerprint.py:14-17` `derive_seed`: `f"{seed}:{label}"`. -/
def samplingSeedText (seed : Int) (label : String) : List Char :=
  intText seed ++ ':' :: label.toList

/-- Text hashed by `src/modssc/preprocess/fingerprint.py:24-31` `derive_seed`:
`f"{master_seed}|{step_index}|{step_id}"`. -/
def stepSeedText (seed idx : Int) (stepId : String) : List Char :=
  intText seed ++ '|' :: (intText idx ++ '|' :: stepId.toList)

end ModSSC.Json
