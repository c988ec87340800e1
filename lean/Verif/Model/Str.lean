import Verif.Basic

/-!
# Python strings used by the model

Strings are lists of characters. These are models of builtin `str` methods, not of TAVI code.
-/

namespace Tavi

/-- Python `str`. -/
abbrev Str := List Char

/-- `s.split(c)` for a one-character separator: always at least one piece. -/
def splitChar (c : Char) : Str → List Str
  | [] => [[]]
  | a :: l =>
    if a = c then [] :: splitChar c l
    else match splitChar c l with
      | [] => [[a]]
      | p :: ps => (a :: p) :: ps

/-- A decimal digit. -/
def isDigit (c : Char) : Bool := decide ('0' ≤ c ∧ c ≤ '9')

/-- Value of a digit. -/
def digitVal (c : Char) : ℕ := c.toNat - '0'.toNat

/-- Value of a string of digits. -/
def digitsVal (s : Str) : ℕ := s.foldl (fun a c => 10 * a + digitVal c) 0

/-- The digit with value `d < 10`. -/
def digitChar (d : ℕ) : Char := Char.ofNat (48 + d)

/-- `str(n)` for a natural number. -/
def decStr (n : ℕ) : Str := if n < 10 then [digitChar n] else decStr (n / 10) ++ [digitChar (n % 10)]
termination_by n
decreasing_by omega

/-- `f"{n:04}"`. -/
def pad4 (n : ℕ) : Str := List.replicate (4 - (decStr n).length) '0' ++ decStr n

/-- `int(s)`: optional sign, at least one digit. Simplification: Python also allows surrounding blanks and single
underscores between digits; here these are refused. -/
def pyInt (s : Str) : Py ℤ :=
  match s with
  | '-' :: t => if t ≠ [] ∧ t.all isDigit then .ok (-(digitsVal t : ℤ)) else .error .valueError
  | '+' :: t => if t ≠ [] ∧ t.all isDigit then .ok (digitsVal t : ℤ) else .error .valueError
  | t => if t ≠ [] ∧ t.all isDigit then .ok (digitsVal t : ℤ) else .error .valueError

/-- `sub in s`. -/
def isSubstr (sub s : Str) : Bool :=
  match s with
  | [] => sub.isEmpty
  | a :: l => sub.isPrefixOf (a :: l) || isSubstr sub l

/-- `l[i]` with Python's negative indices. -/
def pyIndex {α : Type} (l : List α) (i : ℤ) : Py α :=
  if 0 ≤ i then need l[i.toNat]? .indexError
  else if -(l.length : ℤ) ≤ i then need l[(l.length + i).toNat]? .indexError
  else .error .indexError

/-- `c.isspace()` of one character (all characters Python treats as white space). -/
def isSpace (c : Char) : Bool :=
  (9 ≤ c.toNat && c.toNat ≤ 13) || (28 ≤ c.toNat && c.toNat ≤ 32) || c.toNat == 0x85 || c.toNat == 0xa0 ||
  c.toNat == 0x1680 || (0x2000 ≤ c.toNat && c.toNat ≤ 0x200a) || c.toNat == 0x2028 || c.toNat == 0x2029 ||
  c.toNat == 0x202f || c.toNat == 0x205f || c.toNat == 0x3000

/-- `s.strip()`. -/
def strip (s : Str) : Str := ((s.dropWhile isSpace).reverse.dropWhile isSpace).reverse

/-- `s.lstrip(c)` for one character. -/
def lstripChar (c : Char) (s : Str) : Str := s.dropWhile (· == c)

/-- `s.split()`: the maximal runs of characters that are not white space. -/
def splitWs (s : Str) : List Str := (s.splitOnP isSpace).filter fun w => decide (w ≠ [])

/-- `sep.join(l)`. -/
def joinStr (sep : Str) : List Str → Str
  | [] => []
  | [a] => a
  | a :: b :: l => a ++ sep ++ joinStr sep (b :: l)

/-- An unsigned decimal numeral with at most one point and at least one digit. -/
def parseMant (s : Str) : Option ℚ :=
  match splitChar '.' s with
  | [a] => if a ≠ [] ∧ a.all isDigit then some (digitsVal a) else none
  | [a, b] =>
    if (a ≠ [] ∨ b ≠ []) ∧ a.all isDigit ∧ b.all isDigit then
      some (digitsVal a + digitsVal b / 10 ^ b.length)
    else none
  | _ => none

/-- An unsigned decimal numeral with an optional exponent. -/
def parseUnsigned (s : Str) : Option ℚ :=
  match splitChar 'e' (s.map fun c => if c = 'E' then 'e' else c) with
  | [m] => parseMant m
  | [m, e] => match parseMant m, pyInt e with
    | some x, .ok n => some (x * (10 : ℚ) ^ n)
    | _, _ => none
  | _ => none

/-- `float(s)`: blanks around, optional sign, decimal numeral, optional exponent. Simplification: `inf`, `nan` and
underscores are refused, and the result is the exact rational rather than the nearest double. -/
def pyFloat (s : Str) : Py ℚ :=
  match strip s with
  | '-' :: t => need ((parseUnsigned t).map fun x => -x) .valueError
  | '+' :: t => need (parseUnsigned t) .valueError
  | t => need (parseUnsigned t) .valueError

/-- Lookup in a Python dict modelled as an association list; the newest entry comes first. -/
def lookupKey {β : Type} (k : Str) : List (Str × β) → Option β
  | [] => none
  | (k', v) :: l => if k' = k then some v else lookupKey k l

/-- `d[k] = v` in a Python dict modelled as an association list in insertion order: replace in place or append. -/
def assocSet {β : Type} : List (Str × β) → Str → β → List (Str × β)
  | [], k, v => [(k, v)]
  | (k', v') :: l, k, v => if k' = k then (k', v) :: l else (k', v') :: assocSet l k v

/-- `d.update(e)`. -/
def assocUpdate {β : Type} (d e : List (Str × β)) : List (Str × β) := e.foldl (fun acc kv => assocSet acc kv.1 kv.2) d

end Tavi
