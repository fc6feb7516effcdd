import Verif.Json.Decode

/-
Finite IEEE 754 doubles (`f64`), their texts and the way serde_json reads them: what stands behind `Env.F`,
`Env.floatPrint`, `Env.jcsNum` and `Env.floatParse`, i.e. behind every number with a fraction or an exponent in a
`credentialSubject` (core/src/verifiable/vc.rs:21-36; printed at 71-84, canonicalised at 86-95, read at 131-136; likewise
core/src/verifiable/vp.rs:77-99 and 133-138). The crates are not available here; the programs are written from memory of
`ryu` 1 (`pretty::format64`), `ryu-js` 0.2 (the ECMAScript number text used by serde_jcs) and serde_json 1 without the features `float_roundtrip` and
`arbitrary_precision` (`de.rs`: `parse_integer` to `f64_from_parts`).
-/

namespace Verif.Double

/-- Number of finite magnitudes: exponents 0 to 2046 with 52 bits of fraction each. -/
def top : Nat := 2047 * 2 ^ 52

/-- A finite double: the sign bit and the other 63 bits. -/
structure F64 where
  neg : Bool
  mag : Fin top
  deriving DecidableEq

/-- Magnitude with the 63 bits `k`, in units of `2^-1074` (the least positive double). -/
def units (k : Nat) : Nat := if k < 2 ^ 53 then k else (2 ^ 52 + k % 2 ^ 52) * 2 ^ (k / 2 ^ 52 - 1)

/-- The number one in these units. -/
def one : Nat := 2 ^ 1074

/-- Nearest whole number to `n / d`, ties to even. -/
def roundHalf (n d : Nat) : Nat :=
  if 2 * (n % d) < d then n / d else if d < 2 * (n % d) then n / d + 1 else n / d + n / d % 2

/-- The bits of the double nearest to `n / d`, ties to even; from `top` on it is infinite. -/
def round (n d : Nat) : Nat :=
  let s := Nat.log2 (n * one / d) - 52
  s * 2 ^ 52 + roundHalf (n * one) (d * 2 ^ s)

/-- The bits of the double nearest to `D * 10^e`. -/
def ofDec (D : Nat) (e : Int) : Nat := round (D * 10 ^ e.toNat) (10 ^ (-e).toNat)

/-! ### Shortest digits -/

/-- The `E` with `10^(E-1) ≤ x < 10^E` for the magnitude `x` with bits `k`. -/
def decade (k : Nat) : Int := (Nat.digits 10 (units k * 10 ^ 400 / one)).length - 400

/-- The decimal of `n` digits that denotes the double `k`, nearest to it if there are two. -/
def withDigits (k n : Nat) : Option (Nat × Int) :=
  let e := decade k - n
  let a := units k * 10 ^ (-e).toNat
  let b := one * 10 ^ e.toNat
  let q := a / b
  if ofDec q e = k then
    if ofDec (q + 1) e = k then some (roundHalf a b, e) else some (q, e)
  else if ofDec (q + 1) e = k then some (q + 1, e) else none

/-- Remove trailing zeros, at most `fuel`. -/
def strip : Nat → Nat × Int → Nat × Int
  | 0, p => p
  | fuel + 1, (D, e) => if D % 10 = 0 then strip fuel (D / 10, e + 1) else (D, e)

/-- The first result among `n` arguments from `i` on. -/
def search (f : Nat → Option (Nat × Int)) : Nat → Nat → Nat × Int
  | 0, _ => (0, 0)
  | n + 1, i => match f i with
    | some p => p
    | none => search f n (i + 1)

/-- The shortest decimal `D * 10^e` that denotes the double `k`; 17 digits are enough for every double. -/
def shortest (k : Nat) : Nat × Int := strip 17 (search (withDigits k) 17 1)

/-! ### Texts -/

/-- Text of an exponent. -/
def expText (plus : Bytes) (x : Int) : Bytes := (if x < 0 then [0x2d] else plus) ++ natDec x.natAbs

/-- Scientific text of digits `ds` with the exponent of the first one. -/
def sciText (plus ds : Bytes) (x : Int) : Bytes :=
  ds.take 1 ++ (if ds.length = 1 then [] else 0x2e :: ds.drop 1) ++ 0x65 :: expText plus x

/-- `ryu::raw::format64` for a magnitude that is not zero: `ds` are the digits, `e` the exponent of the last one. -/
def ryuText (ds : Bytes) (e : Int) : Bytes :=
  let kk := ds.length + e
  if 0 ≤ e ∧ kk ≤ 16 then ds ++ List.replicate e.toNat 0x30 ++ [0x2e, 0x30]
  else if 0 < kk ∧ kk ≤ 16 then ds.take kk.toNat ++ 0x2e :: ds.drop kk.toNat
  else if -5 < kk ∧ kk ≤ 0 then [0x30, 0x2e] ++ List.replicate (-kk).toNat 0x30 ++ ds
  else sciText [] ds (kk - 1)

/-- `ryu_js::raw::format64`, the text of ECMAScript's `Number::toString`. -/
def esText (ds : Bytes) (e : Int) : Bytes :=
  let kk := ds.length + e
  if 0 ≤ e ∧ kk ≤ 21 then ds ++ List.replicate e.toNat 0x30
  else if 0 < kk ∧ kk ≤ 21 then ds.take kk.toNat ++ 0x2e :: ds.drop kk.toNat
  else if -6 < kk ∧ kk ≤ 0 then [0x30, 0x2e] ++ List.replicate (-kk).toNat 0x30 ++ ds
  else sciText [0x2b] ds (kk - 1)

/-- The text serde_json writes. -/
def print (f : F64) : Bytes :=
  (if f.neg then [0x2d] else []) ++
    if f.mag.1 = 0 then [0x30, 0x2e, 0x30] else ryuText (natDec (shortest f.mag.1).1) (shortest f.mag.1).2

/-- The text serde_jcs writes for a double; both zeros are `0`. -/
def printEs (f : F64) : Bytes :=
  if f.mag.1 = 0 then [0x30]
  else (if f.neg then [0x2d] else []) ++ esText (natDec (shortest f.mag.1).1) (shortest f.mag.1).2

/-- The text serde_jcs writes for a number. -/
def jcsNum : Num F64 → Bytes
  | .float f => printEs f
  | n => printNum print n

/-! ### Reading -/

/-- Product of two doubles. -/
def mul (a b : Nat) : Nat := round (units a * units b) (one * one)

/-- Quotient of two doubles. -/
def div (a b : Nat) : Nat := round (units a) (units b)

/-- `f64_from_parts`. After two divisions by `1e308` the number is zero, so three rounds are enough. -/
def scale : Nat → Nat → Int → Option Nat
  | 0, f, _ => some f
  | fuel + 1, f, e =>
    if e.natAbs ≤ 308 then
      if 0 ≤ e then (if mul f (round (10 ^ e.natAbs) 1) < top then some (mul f (round (10 ^ e.natAbs) 1)) else none)
      else some (div f (round (10 ^ e.natAbs) 1))
    else if f = 0 then some f
    else if 0 ≤ e then none
    else scale fuel (div f (round (10 ^ 308) 1)) (e + 308)

/-- Digits of the integer part: as many as fit in `u64`, and the number of those dropped
(`parse_integer`, `parse_long_integer`). -/
def readInt : Bytes → Nat → Nat × Int
  | [], s => (s, 0)
  | b :: r, s =>
    if s * 10 + (b.toNat - 0x30) < 2 ^ 64 then readInt r (s * 10 + (b.toNat - 0x30)) else (s, (b :: r).length)

/-- Digits of the fraction: as many as fit in `u64` (`parse_decimal`, `parse_decimal_overflow`). -/
def readFrac : Bytes → Nat → Int → Nat × Int
  | [], s, e => (s, e)
  | b :: r, s, e =>
    if s * 10 + (b.toNat - 0x30) < 2 ^ 64 then readFrac r (s * 10 + (b.toNat - 0x30)) (e - 1) else (s, e)

/-- Exponent after `e` and the digits of the mantissa (`parse_exponent`, `parse_exponent_overflow`). -/
def readExp (r : Bytes) (s : Nat) (e : Int) : Option Nat :=
  match r with
  | [] => scale 4 (round s 1) e
  | _ :: r =>
    let ds := decVal (spanDigits (scanSign r).2).1
    if (scanSign r).1 = [0x2d] then
      if ds < 2 ^ 31 then scale 4 (round s 1) (max (e - ds) (-2 ^ 31)) else some 0
    else
      if ds < 2 ^ 31 then scale 4 (round s 1) (min (e + ds) (2 ^ 31 - 1)) else if s = 0 then some 0 else none

/-- Magnitude of a number token without sign. -/
def readMag (t : Bytes) : Option Nat :=
  let i := readInt (spanDigits t).1 0
  match (spanDigits t).2 with
  | [] => scale 4 (round i.1 1) i.2
  | b :: r =>
    if b = 0x2e then
      let p := readFrac (spanDigits r).1 i.1 i.2
      readExp (spanDigits r).2 p.1 p.2
    else readExp (b :: r) i.1 i.2

/-- serde_json's reading of a number token as `f64`; `none` is "number out of range". -/
def parse (t : Bytes) : Option F64 :=
  let sign := t.head? = some 0x2d
  match readMag (if sign then t.tail else t) with
  | some k => if h : k < top then some ⟨decide sign, k, h⟩ else none
  | none => none

/-! ### Samples

The printed texts are those of Python's `repr` (which has the same digits) in the layout of `ryu`; the numbers read
differ from the correctly rounded ones where serde_json's reading is not exact. -/

/-- A double from its 64 bits. -/
def ofBits (b : Nat) (h : b % 2 ^ 63 < top) : F64 := ⟨decide (2 ^ 63 ≤ b), b % 2 ^ 63, h⟩

/-- A text as bytes. -/
def ascii (s : String) : Bytes := s.toList.map fun c => UInt8.ofNat c.toNat

/-- 1.75, 0.1 + 0.2, 1e21, 1e16, 123456789012345680, 1e-5, 1e-7, least and greatest positive double, -0. -/
example : print (ofBits 0x3ffc000000000000 (by decide +kernel)) = ascii "1.75" ∧
    print (ofBits 0x3fd3333333333334 (by decide +kernel)) = ascii "0.30000000000000004" ∧
    print (ofBits 0x444b1ae4d6e2ef50 (by decide +kernel)) = ascii "1e21" ∧
    print (ofBits 0x4341c37937e08000 (by decide +kernel)) = ascii "1e16" ∧
    print (ofBits 0x437b69b4ba630f35 (by decide +kernel)) = ascii "1.2345678901234568e17" ∧
    print (ofBits 0x3ee4f8b588e368f1 (by decide +kernel)) = ascii "0.00001" ∧
    print (ofBits 0x3e7ad7f29abcaf48 (by decide +kernel)) = ascii "1e-7" ∧
    print (ofBits 1 (by decide +kernel)) = ascii "5e-324" ∧
    print (ofBits 0x7fefffffffffffff (by decide +kernel)) = ascii "1.7976931348623157e308" ∧
    print (ofBits 0x8000000000000000 (by decide +kernel)) = ascii "-0.0" := by decide +kernel

/-- The same in ECMAScript's layout. -/
example : printEs (ofBits 0xbffc000000000000 (by decide +kernel)) = ascii "-1.75" ∧
    printEs (ofBits 0x444b1ae4d6e2ef50 (by decide +kernel)) = ascii "1e+21" ∧
    printEs (ofBits 0x4415af1d78b58c40 (by decide +kernel)) = ascii "100000000000000000000" ∧
    printEs (ofBits 0x437b69b4ba630f35 (by decide +kernel)) = ascii "123456789012345680" ∧
    printEs (ofBits 0x3ee4f8b588e368f1 (by decide +kernel)) = ascii "0.00001" ∧
    printEs (ofBits 0x3e7ad7f29abcaf48 (by decide +kernel)) = ascii "1e-7" ∧
    printEs (ofBits 1 (by decide +kernel)) = ascii "5e-324" ∧
    printEs (ofBits 0x8000000000000000 (by decide +kernel)) = ascii "0" := by decide +kernel

/-- Reading: exact, with an exponent, too large, too small, with more digits than fit in 64 bits, and one not correctly
rounded (the last number is a double, but the one below is read). -/
example : parse (ascii "1.75") = some (ofBits 0x3ffc000000000000 (by decide +kernel)) ∧
    parse (ascii "-1.5e3") = some (ofBits 0xc097700000000000 (by decide +kernel)) ∧
    parse (ascii "1e309") = none ∧ parse (ascii "0e999999999999") = some (ofBits 0 (by decide +kernel)) ∧
    parse (ascii "1e-400") = some (ofBits 0 (by decide +kernel)) ∧
    parse (ascii "18446744073709551616") = some (ofBits 0x43f0000000000000 (by decide +kernel)) ∧
    parse (ascii "9007199254740991.0") = some (ofBits 0x433ffffffffffffe (by decide +kernel)) := by decide +kernel

end Verif.Double
