import Verif.Model.Sampling
import Mathlib.Data.Int.Log

/-!
# Model of how Python writes and reads numbers

Every metadata file of the package is written by `self.json()` (/repo/resistics/common.py:441-452) and read by `parse_file`
(/repo/resistics/time.py:986, decimate.py:869, window.py:1599, spectra.py:828).  Both use Python's `json`, which writes whole numbers
by `int.__repr__` and floating point numbers by `float.__repr__`, the shortest decimal text that is read back as the same number, and
reads them by `int` and `float`.  Here are exact models of these, for IEEE double precision with subnormal numbers and overflow.
Simplification: there is no negative zero.
-/

namespace Resistics

/-- A Python number: an `int`, a finite `float`, an infinite one, or `nan`. -/
inductive PyNum where
  | int (n : ℤ)
  | float (q : ℚ)
  | inf (negative : Bool)
  | nan
  deriving DecidableEq, Repr

/-- The exponent of the last bit of a double near `x`: 53 significant bits, and nothing smaller than `2 ^ -1074`. -/
def lastBit (x : ℚ) : ℤ := max (Int.log 2 |x| - 52) (-1074)

/-- The double nearest to `x`, ties to even, without a largest one. -/
def nearestDouble (x : ℚ) : ℚ := if x = 0 then 0 else (pyRound (x / (2 : ℚ) ^ lastBit x) : ℚ) * (2 : ℚ) ^ lastBit x

/-- The largest double. -/
def maxDouble : ℚ := (2 ^ 53 - 1) * 2 ^ 971

/-- What `float` makes of the decimal number `x`: the nearest double; numbers that are too large are infinite. -/
def toDouble (x : ℚ) : PyNum := if |nearestDouble x| ≤ maxDouble then .float (nearestDouble x) else .inf (decide (x < 0))

/-! ## Writing -/

/-- The power of ten of the last of `n` digits of `x`. -/
def lastDigit (x : ℚ) (n : ℕ) : ℤ := Int.log 10 x - (n - 1)

/-- Is `m` at the digit of `10 ^ k` read back as `x`? -/
def readsBack (x : ℚ) (k : ℤ) (m : ℕ) : Bool := decide (nearestDouble ((m : ℚ) * (10 : ℚ) ^ k) = x)

/-- The one of two neighbouring decimal numbers that is nearer to `y`; the even one when they are equally near. -/
def nearerDecimal (y : ℚ) (lo : ℕ) : ℕ :=
  if y - lo < 1 / 2 then lo else if 1 / 2 < y - lo then lo + 1 else if lo % 2 = 0 then lo else lo + 1

/-- Of the two neighbouring numbers of `n` digits, the one that is read back as `x`, the nearer one if both are. -/
def pickDecimal (x : ℚ) (n : ℕ) : Option ℕ :=
  let k := lastDigit x n
  let y := x / (10 : ℚ) ^ k
  let lo := ⌊y⌋.toNat
  if readsBack x k lo = true ∧ readsBack x k (lo + 1) = true then some (nearerDecimal y lo)
  else if readsBack x k lo = true then some lo
  else if readsBack x k (lo + 1) = true then some (lo + 1)
  else none

/-- See `shortestDecimal`. -/
def pickWithPlace (x : ℚ) (i : ℕ) : Option (ℕ × ℤ) := (pickDecimal x (i + 1)).map fun m => (m, lastDigit x (i + 1))

/-- `float.__repr__`, digits: the fewest digits that are read back as `x`; 17 always are. -/
def shortestDecimal (x : ℚ) : ℕ × ℤ := ((List.range 17).findSome? (pickWithPlace x)).getD (0, 0)

/-- Digits without the zeros at their end. -/
def stripZeros (ds : List Char) : List Char := (ds.reverse.dropWhile fun c => c == '0').reverse

/-- The exponent of the exponential form: its sign and at least two digits. -/
def exponentText (e : ℤ) : List Char :=
  'e' :: (if e < 0 then '-' else '+') :: (if e.natAbs < 10 then '0' :: Nat.toDigits 10 e.natAbs else Nat.toDigits 10 e.natAbs)

/-- The digits after the first one, in the exponential form. -/
def moreDigits : List Char → List Char
  | [] => []
  | ds => '.' :: ds

/-- `float.__repr__`, layout: `ds` are the digits and the decimal point is after the first `point` of them; exponents below -4 and from
16 on are written out. -/
def layoutDigits (ds : List Char) (point : ℤ) : List Char :=
  if point ≤ -4 ∨ 16 < point then ds.take 1 ++ moreDigits (ds.drop 1) ++ exponentText (point - 1)
  else if point ≤ 0 then '0' :: '.' :: (List.replicate (-point).toNat '0' ++ ds)
  else if point < ds.length then ds.take point.toNat ++ '.' :: ds.drop point.toNat
  else ds ++ List.replicate (point - ds.length).toNat '0' ++ ['.', '0']

/-- `float.__repr__` of a positive number. -/
def positiveText (x : ℚ) : List Char :=
  let d := shortestDecimal x
  let ds := Nat.toDigits 10 d.1
  layoutDigits (stripZeros ds) (ds.length + d.2)

/-- `float.__repr__` of a finite number. -/
def floatText (x : ℚ) : List Char :=
  if x = 0 then ['0', '.', '0'] else if x < 0 then '-' :: positiveText (-x) else positiveText x

/-- `int.__repr__`. -/
def intText (n : ℤ) : List Char := if n < 0 then '-' :: Nat.toDigits 10 n.natAbs else Nat.toDigits 10 n.natAbs

/-! ## Reading -/

/-- A decimal digit. -/
def isDecDigit (c : Char) : Bool := '0' ≤ c && c ≤ '9'

/-- The number some digits make. -/
def digitsValue (ds : List Char) : ℕ := ds.foldl (fun a c => 10 * a + (c.toNat - '0'.toNat)) 0

/-- Digits at the start of a text, and the rest. -/
def spanDigits (cs : List Char) : List Char × List Char := cs.span isDecDigit

/-- The sign at the start of a number. -/
def readMinus : List Char → Bool × List Char
  | '-' :: cs => (true, cs)
  | cs => (false, cs)

/-- The digits after a decimal point; `none` when there is a point without digits. -/
def readFraction : List Char → Option (Option (List Char) × List Char)
  | '.' :: cs => if (spanDigits cs).1 = [] then none else some (some (spanDigits cs).1, (spanDigits cs).2)
  | cs => some (none, cs)

/-- The sign of an exponent. -/
def readSign : List Char → Bool × List Char
  | '-' :: cs => (true, cs)
  | '+' :: cs => (false, cs)
  | cs => (false, cs)

/-- The digits of an exponent after its sign. -/
def exponentDigits (q : Bool × List Char) : Option (Option ℤ × List Char) :=
  if (spanDigits q.2).1 = [] then none
  else some (some (if q.1 then -(digitsValue (spanDigits q.2).1 : ℤ) else digitsValue (spanDigits q.2).1), (spanDigits q.2).2)

/-- The exponent; `none` when there is the letter without digits. -/
def readExponent : List Char → Option (Option ℤ × List Char)
  | 'e' :: cs => exponentDigits (readSign cs)
  | 'E' :: cs => exponentDigits (readSign cs)
  | cs => some (none, cs)

/-- The number made of the digits before the point, after the point and the exponent. -/
def decimalValue (whole frac : List Char) (e : ℤ) : ℚ := (digitsValue (whole ++ frac) : ℚ) * (10 : ℚ) ^ (e - frac.length)

/-- The number of a sign, digits, a fraction and an exponent: an `int` without the last two, else a `float`. -/
def numberOf (neg : Bool) (whole : List Char) (frac : Option (List Char)) (e : Option ℤ) : PyNum :=
  if frac = none ∧ e = none then .int (if neg then -(digitsValue whole : ℤ) else digitsValue whole)
  else toDouble ((if neg then -1 else 1) * decimalValue whole (frac.getD []) (e.getD 0))

/-- The digits before the point: at least one, and a zero only alone. -/
def goodWhole (ds : List Char) : Bool :=
  match ds with
  | [] => false
  | [_] => true
  | c :: _ => c != '0'

/-- The numbers of JSON (the expression `(-?(?:0|[1-9]\d*))(\.\d+)?([eE][-+]?\d+)?` of `json.scanner`), for a whole text. -/
def readNumberText (cs : List Char) : Option PyNum := do
  let (neg, cs) := readMinus cs
  let (whole, cs) := spanDigits cs
  guard (goodWhole whole = true)
  let (frac, cs) ← readFraction cs
  let (e, cs) ← readExponent cs
  guard (cs = [])
  return numberOf neg whole frac e

end Resistics
