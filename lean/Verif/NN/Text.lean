import Verif.NN.File
import Mathlib.Data.Int.Log
import Mathlib.Data.List.DropRight
import Mathlib.Algebra.Order.Floor.Ring
/-!
# The decimal text of a number, as `out << double` and `in >> double` produce and consume it

`NeuralNet::save` (neuralnet.cpp:106, 115) writes with the stream's default format, which is `printf("%.6g")`; `NeuralNet::load` (neuralnet.cpp:135, 145)
converts with `strtod`. Both are written down here for real numbers: the digits are exact decimal digits, and the binary rounding of the value read (half a unit in
the last place of a `double`) is not modelled.
-/
namespace Nnet.NN
noncomputable section

/-! ## Reading: `strtod` -/

/-- `isdigit`. -/
def charDigit (c : Char) : Bool := '0' ≤ c ∧ c ≤ '9'

/-- The value of a string of digits. -/
def decVal (cs : List Char) : Nat := cs.foldl (fun acc c => 10 * acc + (c.toNat - 48)) 0

/-- An optional sign. -/
def parseSign : List Char → Bool × List Char
  | [] => (false, [])
  | c :: cs => if c = '-' then (true, cs) else if c = '+' then (false, cs) else (false, c :: cs)

/-- An optional decimal point followed by digits. -/
def parseFrac : List Char → List Char × List Char
  | [] => ([], [])
  | c :: cs => if c = '.' then (cs.takeWhile charDigit, cs.dropWhile charDigit) else ([], c :: cs)

/-- The exponent part, which must take up the rest of the text. -/
def parseExp : List Char → Option Int
  | [] => some 0
  | c :: cs =>
    if c = 'e' ∨ c = 'E' then
      if (parseSign cs).2 = [] ∨ (parseSign cs).2.all charDigit = false then none
      else some (if (parseSign cs).1 then -(decVal (parseSign cs).2 : Int) else decVal (parseSign cs).2)
    else none

/-- libstdc++'s `__convert_to_v`: `strtod`, with failure (and 0) unless the whole text is a number. -/
def strtod (cs : List Char) : ℝ × Bool :=
  let sg := parseSign cs
  let ip := sg.2.takeWhile charDigit
  let fr := parseFrac (sg.2.dropWhile charDigit)
  if ip = [] ∧ fr.1 = [] then (0, false)
  else match parseExp fr.2 with
    | none => (0, false)
    | some e => ((if sg.1 then -1 else 1) * (decVal (ip ++ fr.1) : ℝ) * (10 : ℝ) ^ (e - fr.1.length), true)

/-! ## Writing: `%.6g` -/

/-- The character of a digit. -/
def digitChar (d : Nat) : Char := Char.ofNat (48 + d)

/-- The `w` last decimal digits of `m`, most significant first. -/
def digitsN : Nat → Nat → List Nat
  | 0, _ => []
  | w + 1, m => digitsN w (m / 10) ++ [m % 10]

/-- The digits of an exponent: at least two. -/
def expDigits (n : Nat) : List Nat := digitsN (max 2 (Nat.log 10 n + 1)) n

/-- The exponent part: `e`, a sign, the digits. -/
def expText : Option Int → List Char
  | none => []
  | some e => 'e' :: (if e < 0 then '-' else '+') :: (expDigits e.natAbs).map digitChar

/-- A sign, digits before the point, digits after the point, and an exponent part. The point is left out when no digit follows it. -/
def decText (neg : Bool) (ip fp : List Nat) (ex : Option Int) : List Char :=
  (if neg then ['-'] else []) ++ ip.map digitChar ++ (if fp = [] then [] else '.' :: fp.map digitChar) ++ expText ex

/-- Rounding to an integer, halves to the even neighbour (the default rounding direction). -/
def roundEven (x : ℝ) : ℤ :=
  if Int.fract x < 1 / 2 then ⌊x⌋ else if 1 / 2 < Int.fract x then ⌊x⌋ + 1 else if Even ⌊x⌋ then ⌊x⌋ else ⌊x⌋ + 1

/-- `a > 0` rounded to six significant digits: mantissa `m` with `10^5 ≤ m < 10^6` and exponent `X` standing for `m * 10^(X-5)`. -/
def sixDigits (a : ℝ) : Nat × ℤ :=
  let e := Int.log 10 a
  let m := (roundEven (a / (10 : ℝ) ^ (e - 5))).toNat
  if m = 10 ^ 6 then (10 ^ 5, e + 1) else (m, e)

/-- Trailing zeros removed. -/
def strip (ds : List Nat) : List Nat := ds.rdropWhile (fun d => d = 0)

/-- The layout of `%.6g` for mantissa `m` and exponent `X`: positional for `-4 ≤ X < 6`, otherwise with an exponent part. -/
def gText (neg : Bool) (m : Nat) (X : ℤ) : List Char :=
  let ds := digitsN 6 m
  if -4 ≤ X ∧ X < 6 then
    if 0 ≤ X then decText neg (ds.take (X.toNat + 1)) (strip (ds.drop (X.toNat + 1))) none
    else decText neg [0] (strip (List.replicate ((-X).toNat - 1) 0 ++ ds)) none
  else decText neg (ds.take 1) (strip (ds.drop 1)) (some X)

/-- The text of `out << v` with the default format. -/
def fmtG (v : ℝ) : List Char :=
  if v = 0 then ['0'] else gText (decide (v < 0)) (sixDigits |v|).1 (sixDigits |v|).2

/-- The library's conversions. -/
def libText : TextIO := ⟨fmtG, strtod⟩

end
end Nnet.NN
