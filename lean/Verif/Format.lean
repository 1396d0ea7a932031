import Verif.Ext
import Mathlib.Data.Int.Log
/-
Binary floating-point formats.
-/
namespace Verif

/-- The numbers of a binary format with `p` digits and exponents from `emin` on (largest exponent
unbounded): `m * 2^e` with `|m| < 2^p` and `e ≥ emin`.  The smallest positive one is `2^emin`. -/
def IsRep (p : Nat) (emin : Int) (r : ℝ) : Prop :=
  ∃ m e : Int, r = m * (2 : ℝ) ^ e ∧ |m| < 2 ^ p ∧ emin ≤ e

/-- The format axioms.  `rnd` may be any of the IEEE 754 rounding directions. -/
structure Fmt.Binary (F : Fmt) (p : Nat) (emin : Int) : Prop where
  /-- at least two digits -/
  digits : 2 ≤ p
  /-- small integers are numbers of the format -/
  emin_le : emin ≤ 0
  /-- results are numbers of the format -/
  rep : ∀ r, IsRep p emin (F.rnd r)
  /-- numbers of the format are not changed -/
  exact : ∀ r, IsRep p emin r → F.rnd r = r
  mono : Monotone F.rnd
  /-- the range of exponents is symmetric -/
  fits_abs : ∀ a b, |a| ≤ |b| → F.fits b → F.fits a
  /-- the range is not trivial -/
  fits_two : F.fits 2

/-- Nearest integer, ties to even. -/
noncomputable def nearestEven (x : ℝ) : Int :=
  if Int.fract x < 1 / 2 then ⌊x⌋
  else if 1 / 2 < Int.fract x then ⌊x⌋ + 1
  else if Even ⌊x⌋ then ⌊x⌋ else ⌊x⌋ + 1

/-- The exponent of the last digit of `r` in the format. -/
noncomputable def lastDigit (p : Nat) (emin : Int) (r : ℝ) : Int := max (Int.log 2 |r| + 1 - p) emin

/-- Round to nearest, ties to even, with gradual underflow. -/
noncomputable def roundNearest (p : Nat) (emin : Int) (r : ℝ) : ℝ :=
  nearestEven (r / 2 ^ lastDigit p emin r) * 2 ^ lastDigit p emin r

/-- IEEE 754 format with `p` digits, smallest positive number `2^emin`, largest number below `2^emax`. -/
noncomputable def Fmt.ieee (p : Nat) (emin emax : Int) : Fmt where
  rnd := roundNearest p emin
  fits r := |r| < 2 ^ emax
  eps := 2 ^ (1 - (p : Int))

/-- `double`. -/
noncomputable def binary64 : Fmt := Fmt.ieee 53 (-1074) 1024
/-- `float`. -/
noncomputable def binary32 : Fmt := Fmt.ieee 24 (-149) 128

/-- Data points that are numbers of the format and whose differences do not overflow. -/
structure Fmt.Data (F : Fmt) (p : Nat) (emin : Int) (xs : List ℝ) : Prop where
  number : ∀ x ∈ xs, IsRep p emin x ∧ F.fits x
  difference : ∀ x ∈ xs, ∀ y ∈ xs, F.fits (F.rnd (x - y))

end Verif
