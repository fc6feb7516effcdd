import Verif.Json.Raw

/-
RFC 8259 as a grammar: which byte strings spell which token tree. Nothing here refers to the reader of
`Json/Raw.lean`; the alternatives below are the productions of the RFC (section numbers in the comments), read on
bytes because the reader does not decode text outside of the strings it keeps.
-/

namespace Verif.Spec
open Verif

/-- RFC 8259 §2: space, line feed, horizontal tab, carriage return. -/
def White (w : Bytes) : Prop := ∀ b ∈ w, b ∈ ([0x20, 0x0a, 0x09, 0x0d] : Bytes)

/-- A decimal digit. -/
def Digit (b : UInt8) : Prop := 48 ≤ b.toNat ∧ b.toNat ≤ 57

/-- `1*DIGIT`. -/
def Digits (l : Bytes) : Prop := l ≠ [] ∧ ∀ b ∈ l, Digit b

/-- A hex digit of either case. -/
def HexDigit (b : UInt8) : Prop :=
  Digit b ∨ (97 ≤ b.toNat ∧ b.toNat ≤ 102) ∨ (65 ≤ b.toNat ∧ b.toNat ≤ 70)

/-- RFC 8259 §6 `int`: a zero, or digits that do not start with a zero. -/
def IntPart (l : Bytes) : Prop := l = [0x30] ∨ (Digits l ∧ l.head? ≠ some 0x30)

/-- RFC 8259 §6 `[ frac ]`. -/
def FracPart (l : Bytes) : Prop := l = [] ∨ ∃ d, Digits d ∧ l = 0x2e :: d

/-- RFC 8259 §6 `[ exp ]`. -/
def ExpPart (l : Bytes) : Prop :=
  l = [] ∨ ∃ e s d, (e = 0x65 ∨ e = 0x45) ∧ s ∈ ([[], [0x2b], [0x2d]] : List Bytes) ∧ Digits d ∧ l = e :: (s ++ d)

/-- RFC 8259 §6 `number`. -/
def NumberText (t : Bytes) : Prop :=
  ∃ m i f e, m ∈ ([[], [0x2d]] : List Bytes) ∧ IntPart i ∧ FracPart f ∧ ExpPart e ∧ t = m ++ (i ++ (f ++ e))

/-- RFC 8259 §7 `*char`: the bytes between the quotes of a string. Bytes from 0x80 on are not looked at here; they
are checked when the string is decoded. -/
inductive StringText : Bytes → Prop
  | nil : StringText []
  /-- unescaped: anything but control bytes, the quote and the backslash -/
  | plain {b : UInt8} {s : Bytes} : 32 ≤ b.toNat → b ≠ 0x22 → b ≠ 0x5c → StringText s → StringText (b :: s)
  /-- `\"`, `\\`, `\/`, `\b`, `\f`, `\n`, `\r`, `\t` -/
  | esc {e : UInt8} {s : Bytes} : e ∈ ([0x22, 0x5c, 0x2f, 0x62, 0x66, 0x6e, 0x72, 0x74] : Bytes) → StringText s →
      StringText (0x5c :: e :: s)
  /-- `\uXXXX` -/
  | uni {a b c d : UInt8} {s : Bytes} : HexDigit a → HexDigit b → HexDigit c → HexDigit d → StringText s →
      StringText (0x5c :: 0x75 :: a :: b :: c :: d :: s)

mutual
/-- RFC 8259 §3 `value`. -/
inductive ValueText : Raw → Bytes → Prop
  /-- `null` -/
  | null : ValueText .null [0x6e, 0x75, 0x6c, 0x6c]
  /-- `true` -/
  | true : ValueText (.bool true) [0x74, 0x72, 0x75, 0x65]
  /-- `false` -/
  | false : ValueText (.bool false) [0x66, 0x61, 0x6c, 0x73, 0x65]
  | num {t : Bytes} : NumberText t → ValueText (.num t) t
  | str {s : Bytes} : StringText s → ValueText (.str s) (0x22 :: (s ++ [0x22]))
  /-- `[ ]` -/
  | arrNil {w : Bytes} : White w → ValueText (.arr []) (0x5b :: (w ++ [0x5d]))
  /-- `[ element , … ]` -/
  | arr {xs : List Raw} {b : Bytes} : ElemsText xs b → ValueText (.arr xs) (0x5b :: (b ++ [0x5d]))
  /-- `{ }` -/
  | objNil {w : Bytes} : White w → ValueText (.obj []) (0x7b :: (w ++ [0x7d]))
  /-- `{ member , … }` -/
  | obj {kvs : List (Bytes × Raw)} {b : Bytes} : MembersText kvs b → ValueText (.obj kvs) (0x7b :: (b ++ [0x7d]))
/-- RFC 8259 §5: one or more values separated by commas, white space around each. -/
inductive ElemsText : List Raw → Bytes → Prop
  | one {x : Raw} {w b w' : Bytes} : White w → ValueText x b → White w' → ElemsText [x] (w ++ (b ++ w'))
  | more {x : Raw} {xs : List Raw} {w b w' r : Bytes} : White w → ValueText x b → White w' → ElemsText xs r →
      ElemsText (x :: xs) (w ++ (b ++ (w' ++ 0x2c :: r)))
/-- RFC 8259 §4: one or more `"name" : value` separated by commas, white space around each token. -/
inductive MembersText : List (Bytes × Raw) → Bytes → Prop
  | one {k : Bytes} {x : Raw} {w u v b w' : Bytes} : White w → StringText k → White u → White v → ValueText x b →
      White w' → MembersText [(k, x)] (w ++ 0x22 :: (k ++ 0x22 :: (u ++ 0x3a :: (v ++ (b ++ w')))))
  | more {k : Bytes} {x : Raw} {xs : List (Bytes × Raw)} {w u v b w' r : Bytes} : White w → StringText k → White u →
      White v → ValueText x b → White w' → MembersText xs r →
      MembersText ((k, x) :: xs) (w ++ 0x22 :: (k ++ 0x22 :: (u ++ 0x3a :: (v ++ (b ++ (w' ++ 0x2c :: r))))))
end

/-- RFC 8259 §2 `JSON-text`: a value with white space around it. -/
def JsonText (r : Raw) (bs : Bytes) : Prop := ∃ w b w', White w ∧ ValueText r b ∧ White w' ∧ bs = w ++ (b ++ w')

end Verif.Spec
