import Mathlib.Data.Nat.Digits.Defs
import Verif.Base

/-
The texts `str::parse::<DateTime<Utc>>` of chrono (0.4.31 and later, from memory: no source in the sandbox) accepts, which
`validate_created` (core/src/verifiable/proof/mod.rs:184-201) asks for. The date itself is thrown away by the caller, so only
acceptance is modelled. The last years of chrono's range of dates depend on its version (see `Spec.ChronoDates`).
-/

namespace Verif.Spec

/-- Unicode `White_Space`. -/
def whites : List Nat :=
  [9, 10, 11, 12, 13, 32, 0x85, 0xA0, 0x1680, 0x2000, 0x2001, 0x2002, 0x2003, 0x2004, 0x2005, 0x2006, 0x2007, 0x2008, 0x2009,
   0x200A, 0x2028, 0x2029, 0x202F, 0x205F, 0x3000]

def Blank (w : Str) : Prop := ∀ c ∈ w, c.toNat ∈ whites

def Decimals (d : Str) : Prop := ∀ c ∈ d, 48 ≤ c.toNat ∧ c.toNat ≤ 57

/-- `d` is a decimal numeral for `n` of one to `k` digits. -/
structure Numeral (k n : Nat) (d : Str) : Prop where
  some : d ≠ []
  short : d.length ≤ k
  digits : Decimals d
  value : n = Nat.ofDigits 10 (d.reverse.map fun c => c.toNat - 48)

/-- The text of a year: up to four digits, or a sign and any number of digits for a year within the range of dates. -/
inductive IsYear (y : Nat) : Str → Prop
  | plain {d : Str} : Numeral 4 y d → IsYear y d
  | signed {sign : Char} {d : Str} : sign ∈ "+-".toList → Numeral d.length y d → y ≤ 262141 → IsYear y (sign :: d)

/-- Leap years of the Gregorian calendar. The year before the year 1 is the year 0, so a sign does not matter. -/
def Leap (y : Nat) : Prop := 4 ∣ y ∧ (100 ∣ y → 400 ∣ y)

/-- Days of the Gregorian calendar. -/
structure Day (y m d : Nat) : Prop where
  month : 1 ≤ m ∧ m ≤ 12
  day : 1 ≤ d ∧ d ≤ 31
  thirty : m ∈ [4, 6, 9, 11] → d ≤ 30
  february : m = 2 → d ≤ 29 ∧ (d = 29 → Leap y)

inductive Fraction : Str → Prop
  | none : Fraction []
  | some {d : Str} : d ≠ [] → Decimals d → Fraction ('.' :: d)

/-- Z, UTC, or an offset of at most 23 hours 59 minutes; colons and white space may stand between hours and minutes. -/
inductive Zone : Str → Prop
  | zulu {z : Char} : z ∈ "Zz".toList → Zone [z]
  | utc {u t c : Char} : u ∈ "Uu".toList → t ∈ "Tt".toList → c ∈ "Cc".toList → Zone [u, t, c]
  | offset {sign : Char} {h m : Nat} {hh between mm : Str} : sign ∈ "+-\u2212".toList → Numeral 2 h hh → hh.length = 2 → h < 24 →
      (∀ c ∈ between, c = ':' ∨ c.toNat ∈ whites) → Numeral 2 m mm → mm.length = 2 → m < 60 → Zone (sign :: hh ++ between ++ mm)

/-- The texts that are accepted. -/
def IsDateText (t : Str) : Prop :=
  ∃ (y mo d h mi s : Nat) (y' mo' d' h' mi' s' fraction zone w₀ w₁ w₂ w₃ w₄ w₅ w₆ w₇ w₈ w₉ w₁₀ w₁₁ : Str) (sep : Char),
    t = w₀ ++ y' ++ w₁ ++ "-".toList ++ w₂ ++ mo' ++ w₃ ++ "-".toList ++ w₄ ++ d' ++ sep :: w₅ ++ h' ++ w₆ ++ ":".toList ++ w₇ ++ mi' ++
      w₈ ++ ":".toList ++ w₉ ++ s' ++ fraction ++ w₁₀ ++ zone ++ w₁₁ ∧
    IsYear y y' ∧ Numeral 2 mo mo' ∧ Numeral 2 d d' ∧ Day y mo d ∧ sep ∈ "Tt ".toList ∧
    Numeral 2 h h' ∧ h < 24 ∧ Numeral 2 mi mi' ∧ mi < 60 ∧ Numeral 2 s s' ∧ s ≤ 60 ∧ Fraction fraction ∧ Zone zone ∧
    Blank w₀ ∧ Blank w₁ ∧ Blank w₂ ∧ Blank w₃ ∧ Blank w₄ ∧ Blank w₅ ∧ Blank w₆ ∧ Blank w₇ ∧ Blank w₈ ∧ Blank w₉ ∧ Blank w₁₀ ∧
    Blank w₁₁

end Verif.Spec

namespace Verif.Chrono
open Verif

/-- `char::is_whitespace`. -/
def isWhite (c : Char) : Bool :=
  c == ' ' || ('\x09' ≤ c && c ≤ '\x0d') || c == '\u0085' || c == '\u00a0' || c == '\u1680' || ('\u2000' ≤ c && c ≤ '\u200a') ||
    c == '\u2028' || c == '\u2029' || c == '\u202f' || c == '\u205f' || c == '\u3000'

/-- `str::trim_start`. -/
def trimStart (s : Str) : Str := s.dropWhile isWhite

def isDigit (c : Char) : Bool := '0' ≤ c && c ≤ '9'

/-- `format::scan::number(s, 1, max)`. What it refuses for overflow, `year` refuses for its size. -/
def number (max : Nat) (s : Str) : Option (Nat × Str) :=
  match (s.take max).takeWhile isDigit with
  | [] => none
  | d => some (d.foldl (fun n c => n * 10 + (c.toNat - 48)) 0, s.drop d.length)

/-- `Item::Literal` of one character in `format::parse_internal`. -/
def literal (c : Char) (s : Str) : Option Str :=
  match s with
  | x :: r => if x = c then some r else none
  | [] => none

/-- `Item::Numeric` without a sign, followed by the range check of `Parsed::set_*`. -/
def numeric (max lo hi : Nat) (s : Str) : Option (Nat × Str) :=
  match number max (trimStart s) with
  | none => none
  | some (n, r) => if lo ≤ n ∧ n ≤ hi then some (n, r) else none

/-- `Item::Space("")`, then `Item::Literal`. -/
def sep (c : Char) (s : Str) : Option Str := literal c (trimStart s)

/-- `Numeric::Year`, which may have a sign and then has no limit of digits; the size of the year without the sign. The check of the
range is that of `Parsed::to_naive_date`. -/
def year (s : Str) : Option (Nat × Str) :=
  match trimStart s with
  | [] => none
  | c :: r =>
    if c == '-' || c == '+' then
      match number r.length r with
      | none => none
      | some (n, r) => if n ≤ 262141 then some (n, r) else none
    else number 4 (c :: r)

/-- `DATE_ITEMS` of `format::parse_rfc3339_relaxed`. -/
def date (s : Str) : Option ((Nat × Nat × Nat) × Str) := do
  let (y, s) ← year s
  let s ← sep '-' s
  let (m, s) ← numeric 2 1 12 s
  let s ← sep '-' s
  let (d, s) ← numeric 2 1 31 s
  return ((y, m, d), s)

/-- `Fixed::Nanosecond` with `scan::nanosecond`: further digits are skipped. -/
def fraction (s : Str) : Option Str :=
  match s with
  | '.' :: r =>
    match r.takeWhile isDigit with
    | [] => none
    | d => some (r.drop d.length)
  | s => some s

/-- `TIME_ITEMS`. -/
def time (s : Str) : Option Str := do
  let (_, s) ← numeric 2 0 23 s
  let s ← sep ':' s
  let (_, s) ← numeric 2 0 59 s
  let s ← sep ':' s
  let (_, s) ← numeric 2 0 60 s
  let s ← fraction s
  return trimStart s

/-- `scan::timezone_offset` with `colon_or_space`, after the sign: seconds, and the rest. -/
def offset (s : Str) : Option (Nat × Str) :=
  match s with
  | a :: b :: r =>
    if isDigit a && isDigit b then
      match r.dropWhile fun c => c == ':' || isWhite c with
      | c :: d :: r =>
        if '0' ≤ c && c ≤ '5' && isDigit d then
          some (((a.toNat - 48) * 10 + (b.toNat - 48)) * 3600 + ((c.toNat - 48) * 10 + (d.toNat - 48)) * 60, r)
        else none
      | _ => none
    else none
  | _ => none

/-- `"UTC".as_bytes().eq_ignore_ascii_case(&s.as_bytes()[..3])`. -/
def isUtc (s : Str) : Bool :=
  match s with
  | a :: b :: c :: _ => (a == 'U' || a == 'u') && (b == 'T' || b == 't') && (c == 'C' || c == 'c')
  | _ => false

/-- The zone in `parse_rfc3339_relaxed`. The sign does not matter for acceptance. -/
def zone (s : Str) : Option (Nat × Str) :=
  match trimStart s with
  | [] => none
  | a :: r =>
    if isUtc (a :: r) then some (0, r.drop 2)
    else if a == 'Z' || a == 'z' then some (0, r)
    else if a == '+' || a == '-' || a == '\u2212' then offset r
    else none

/-- `NaiveDate::from_ymd_opt` for a month and a day in range. -/
def dayExists (y m d : Nat) : Bool :=
  let leap := y % 4 == 0 && (y % 100 != 0 || y % 400 == 0)
  decide (d ≤ [31, if leap then 29 else 28, 31, 30, 31, 30, 31, 31, 30, 31, 30, 31].getD (m - 1) 0)

/-- `DateTime::<Utc>::from_str`. -/
def accepts (t : Str) : Bool :=
  match date t with
  | none => false
  | some ((y, m, d), s) =>
    match s with
    | [] => false
    | c :: s =>
      if c == 't' || c == 'T' || c == ' ' then
        match time s with
        | none => false
        | some s =>
          match zone s with
          | none => false
          | some (o, s) => (trimStart s).isEmpty && dayExists y m d && decide (o < 86400)
      else false

example : accepts "2024-05-01T12:34:56Z".toList = true ∧ accepts "2024-05-01 12:34:56.789012345 UTC".toList = true ∧
    accepts "2012-  12-12T12: 12:12Z".toList = true ∧ accepts "2023-2-29 0:0:0Z".toList = false ∧
    accepts "2024-02-29t23:59:60.5 +23 :59 ".toList = true ∧ accepts "2024-02-29T24:00:00Z".toList = false ∧
    accepts "1900-02-29T00:00:00Z".toList = false ∧ accepts "2000-02-29T00:00:00Z".toList = true ∧
    accepts "2024-02-29T00:00:00".toList = false ∧ accepts "2024-02-29T00:00:00+24:00".toList = false ∧
    accepts "2024-02-29T00:00:00+2359".toList = true ∧ accepts "2024-02-29T00:00:00.Z".toList = false ∧
    accepts "2024-02-29T00:00:00+00:60".toList = false ∧ accepts "2024-02-29  T00:00:00Z".toList = false ∧
    accepts "2024-02-29T00:00:00Zx".toList = false ∧ accepts "12024-02-29T00:00:00Z".toList = false ∧
    accepts "+12024-02-29T00:00:00Z".toList = true ∧ accepts " -0044-03-15T12:00:00Z".toList = true ∧
    accepts "- 44-03-15T12:00:00Z".toList = false ∧ accepts "+262145-01-01T00:00:00Z".toList = false ∧
    accepts "+00002024-02-29T00:00:00Z".toList = true ∧ accepts "+-2024-02-29T00:00:00Z".toList = false := by decide +kernel

end Verif.Chrono
