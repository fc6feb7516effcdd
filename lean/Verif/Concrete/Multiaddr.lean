import Verif.Concrete.Dates
import Verif.Spec.Text

/-
Network addresses: `str::parse::<Multiaddr>` of the crate multiaddr (0.18, from memory: no source in the sandbox), which
`Params::parse_multiaddr` (core/src/did/query.rs:14-25) asks for, with the readers of IP addresses and numbers of Rust's standard
library behind it; the peers of `p2p` are multihashes in base 58. Protocols whose values need further formats are left out (`Spec.openNames`), and so is the empty text.
-/

namespace Verif.Spec

/-- What follows the name of a protocol. -/
inductive AddrValue where
  | none
  | ip4 (a b c d : Nat)
  | ip6 (groups : List Nat)
  | number (n : Nat)
  | text (s : Str)
  | peer (id : Bytes)
  deriving DecidableEq

/-- One component of an address. -/
structure AddrPart where
  protocol : Str
  value : AddrValue
  deriving DecidableEq

/-- Protocols without a value. -/
def flagNames : List Str :=
  ["udt".toList, "utp".toList, "quic".toList, "quic-v1".toList, "http".toList, "https".toList, "ws".toList, "wss".toList,
   "p2p-circuit".toList, "tls".toList, "noise".toList, "webtransport".toList]

/-- Protocols with a port. -/
def portNames : List Str := ["tcp".toList, "udp".toList, "dccp".toList, "sctp".toList]

/-- Protocols with a host name. -/
def hostNames : List Str := ["dns".toList, "dns4".toList, "dns6".toList, "dnsaddr".toList]

/-- The other names of the registry of protocols; not modelled. -/
def openNames : List Str :=
  ["ipfs".toList, "onion".toList, "onion3".toList, "certhash".toList, "garlic32".toList, "garlic64".toList,
   "x-parity-ws".toList, "x-parity-wss".toList, "http-path".toList, "ip6zone".toList, "ipcidr".toList, "unix".toList, "sni".toList,
   "thread".toList, "plaintextv2".toList, "webrtc".toList, "webrtc-direct".toList, "p2p-webrtc-direct".toList,
   "p2p-webrtc-star".toList, "p2p-websocket-star".toList, "p2p-stardust".toList, "libp2p-webrtc-star".toList,
   "libp2p-webrtc-direct".toList, "silverpine".toList, "scion".toList]

/-- A number from 0 to 255 in decimal, without leading zero. -/
def Octet (n : Nat) (d : Str) : Prop := Numeral 3 n d ∧ n ≤ 255 ∧ (d.head? = some '0' → d = "0".toList)

/-- Four numbers and three dots. -/
def IsIp4 (a b c d : Nat) (s : Str) : Prop :=
  ∃ a' b' c' d', s = a' ++ '.' :: b' ++ '.' :: c' ++ '.' :: d' ∧ Octet a a' ∧ Octet b b' ∧ Octet c c' ∧ Octet d d'

/-- A hexadecimal digit of either case. -/
def HexChar (c : Char) : Prop := (48 ≤ c.toNat ∧ c.toNat ≤ 57) ∨ (65 ≤ c.toNat ∧ c.toNat ≤ 70) ∨ (97 ≤ c.toNat ∧ c.toNat ≤ 102)

/-- Its value. -/
def hexValue (c : Char) : Nat := if c.toNat ≤ 57 then c.toNat - 48 else if c.toNat ≤ 70 then c.toNat - 55 else c.toNat - 87

/-- One to four hexadecimal digits. -/
structure HexGroup (n : Nat) (s : Str) : Prop where
  some : s ≠ []
  short : s.length ≤ 4
  digits : ∀ c ∈ s, HexChar c
  value : n = Nat.ofDigits 16 (s.reverse.map hexValue)

/-- Groups with colons between. -/
inductive Groups : List Nat → Str → Prop
  | one {n s} : HexGroup n s → Groups [n] s
  | more {n s gs t} : HexGroup n s → Groups gs t → Groups (n :: gs) (s ++ ':' :: t)

/-- Groups with colons between; the last two may be written as an IPv4 address. -/
inductive Ending : List Nat → Str → Prop
  | one {n s} : HexGroup n s → Ending [n] s
  | quad {a b c d s} : IsIp4 a b c d s → Ending [a * 256 + b, c * 256 + d] s
  | more {n s gs t} : HexGroup n s → Ending gs t → Ending (n :: gs) (s ++ ':' :: t)

/-- Section 2.2 of RFC 4291: eight groups; once `::` may stand for one or more groups of zeros. -/
def IsIp6 (gs : List Nat) (s : Str) : Prop :=
  gs.length = 8 ∧ (Ending gs s ∨ ∃ hs ts k head tail, s = head ++ "::".toList ++ tail ∧ gs = hs ++ List.replicate (k + 1) 0 ++ ts ∧
    ((hs = [] ∧ head = []) ∨ Groups hs head) ∧ ((ts = [] ∧ tail = []) ∨ Ending ts tail))

/-- A decimal numeral below the limit; a plus sign and leading zeros are allowed. -/
def LooseNumber (limit n : Nat) (s : Str) : Prop := ∃ d, (s = d ∨ s = '+' :: d) ∧ Numeral d.length n d ∧ n < limit

/-- The bytes of a peer: a multihash with the code of SHA-256 and at most 64 bytes, or with that of the identity and at most 42. -/
def IsPeer (b : Bytes) : Prop :=
  ∃ (n : UInt8) (d : Bytes), d.length = n.toNat ∧ ((b = 0x12 :: n :: d ∧ d.length ≤ 64) ∨ (b = 0x00 :: n :: d ∧ d.length ≤ 42))

/-- `s` is a text of a value for the protocol. -/
inductive IsValue : Str → AddrValue → Str → Prop
  | ip4 {a b c d s} : IsIp4 a b c d s → IsValue "ip4".toList (.ip4 a b c d) s
  | ip6 {gs s} : IsIp6 gs s → IsValue "ip6".toList (.ip6 gs) s
  | port {p n s} : p ∈ portNames → LooseNumber (2 ^ 16) n s → IsValue p (.number n) s
  | memory {n s} : LooseNumber (2 ^ 64) n s → IsValue "memory".toList (.number n) s
  | peer {b s} : IsPeer b → IsBase58 b s → IsValue "p2p".toList (.peer b) s
  | host {p s} : p ∈ hostNames → '/' ∉ s → IsValue p (.text s) s

/-- The texts of addresses. -/
inductive IsAddress : List AddrPart → Str → Prop
  | nil : IsAddress [] []
  | flag {p ps t} : p ∈ flagNames → IsAddress ps t → IsAddress (⟨p, .none⟩ :: ps) ('/' :: p ++ t)
  | value {p v s ps t} : IsValue p v s → IsAddress ps t → IsAddress (⟨p, v⟩ :: ps) ('/' :: p ++ '/' :: s ++ t)

end Verif.Spec

namespace Verif.Multiaddr
open Verif Spec

/-- `char::to_digit(radix)` for 10 and 16. -/
def digit (radix : Nat) (c : Char) : Option Nat :=
  let n := if '0' ≤ c && c ≤ '9' then c.toNat - 48 else if 'a' ≤ c && c ≤ 'f' then c.toNat - 87
    else if 'A' ≤ c && c ≤ 'F' then c.toNat - 55 else radix
  if n < radix then some n else none

/-- `net::parser::Parser::read_number`: the limit of the number type is left to the caller. -/
def number (radix max : Nat) (zeros : Bool) (s : Str) : Option (Nat × Str) :=
  let d := s.takeWhile fun c => (digit radix c).isSome
  if d.isEmpty || decide (max < d.length) || (!zeros && d.head? == some '0' && decide (1 < d.length)) then none
  else some (d.foldl (fun n c => n * radix + (digit radix c).getD 0) 0, s.drop d.length)

/-- `read_given_char`. -/
def given (c : Char) (s : Str) : Option Str :=
  match s with
  | x :: r => if x = c then some r else none
  | [] => none

/-- One number of `read_ipv4_addr`. -/
def octet (s : Str) : Option (Nat × Str) :=
  match number 10 3 false s with
  | some (n, r) => if n < 256 then some (n, r) else none
  | none => none

/-- `read_ipv4_addr`. -/
def ip4 (s : Str) : Option ((Nat × Nat × Nat × Nat) × Str) := do
  let (a, s) ← octet s
  let s ← given '.' s
  let (b, s) ← octet s
  let s ← given '.' s
  let (c, s) ← octet s
  let s ← given '.' s
  let (d, s) ← octet s
  return ((a, b, c, d), s)

/-- `read_separator`. -/
def separated {α : Type} (first : Bool) (f : Str → Option (α × Str)) (s : Str) : Option (α × Str) :=
  if first then f s else (given ':' s).bind f

/-- `read_groups`, with the number of groups left. -/
def groups : Nat → Bool → Str → List Nat × Bool × Str
  | 0, _, s => ([], false, s)
  | n + 1, first, s =>
    match if 1 ≤ n then separated first ip4 s else none with
    | some ((a, b, c, d), r) => ([a * 256 + b, c * 256 + d], true, r)
    | none =>
      match separated first (number 16 4 true) s with
      | some (g, r) => let (gs, v4, r) := groups n false r; (g :: gs, v4, r)
      | none => ([], false, s)

/-- `read_ipv6_addr`. -/
def ip6 (s : Str) : Option (List Nat × Str) :=
  let (head, v4, r) := groups 8 true s
  if head.length = 8 then some (head, r)
  else if v4 then none
  else
    match r with
    | ':' :: ':' :: r =>
      let (tail, _, r) := groups (7 - head.length) true r
      some (head ++ List.replicate (8 - head.length - tail.length) 0 ++ tail, r)
    | _ => none

/-- `u16::from_str` and `u64::from_str`. -/
def unsigned (limit : Nat) (s : Str) : Option Nat :=
  let d := match s with
    | '+' :: r => r
    | s => s
  if d.isEmpty || !d.all (fun c => (digit 10 c).isSome) then none
  else
    let n := d.foldl (fun n c => n * 10 + (digit 10 c).getD 0) 0
    if n < limit then some n else none

/-- `unsigned_varint::decode::u64`, with the number of bytes left: the last byte is not 0, but for the number 0. -/
def varint : Nat → Bytes → Option (Nat × Bytes)
  | 0, _ => none
  | _, [] => none
  | k + 1, c :: r =>
    if c < 128 then some (c.toNat, r)
    else
      match varint k r with
      | some (n, r) => if n = 0 then none else some (c.toNat - 128 + 128 * n, r)
      | none => none

/-- `Multihash::<64>::from_bytes`: nothing is left after the digest. -/
def multihash (b : Bytes) : Option (Nat × Bytes) := do
  let (code, r) ← varint 10 b
  let (size, d) ← varint 10 r
  if code < 2 ^ 64 ∧ size ≤ 64 ∧ d.length = size then some (code, d) else none

/-- `PeerId::from_bytes`. -/
def peer (b : Bytes) : Option Bytes :=
  match multihash b with
  | some (code, d) => if code = 0x12 ∨ (code = 0 ∧ d.length ≤ 42) then some b else none
  | none => none

/-- The value in `Protocol::from_str_parts`. -/
def value (p s : Str) : Option AddrValue :=
  if p = "ip4".toList then
    match ip4 s with
    | some ((a, b, c, d), []) => some (.ip4 a b c d)
    | _ => none
  else if p = "ip6".toList then
    match ip6 s with
    | some (gs, []) => some (.ip6 gs)
    | _ => none
  else if p ∈ ["tcp".toList, "udp".toList, "dccp".toList, "sctp".toList] then (unsigned 65536 s).map .number
  else if p = "memory".toList then (unsigned 18446744073709551616 s).map .number
  else if p = "p2p".toList then ((base58Decode s).bind peer).map .peer
  else if p ∈ ["dns".toList, "dns4".toList, "dns6".toList, "dnsaddr".toList] then some (.text s)
  else none

/-- `Protocol::from_str_parts`, until no part is left. -/
def parts : List Str → Option (List AddrPart)
  | [] => some []
  | p :: rest =>
    if p ∈ ["udt".toList, "utp".toList, "quic".toList, "quic-v1".toList, "http".toList, "https".toList, "ws".toList, "wss".toList,
        "p2p-circuit".toList, "tls".toList, "noise".toList, "webtransport".toList] then
      (parts rest).map (⟨p, .none⟩ :: ·)
    else
      match rest with
      | [] => none
      | s :: rest => do
        let v ← value p s
        let ps ← parts rest
        return ⟨p, v⟩ :: ps

/-- `Multiaddr::from_str`. -/
def parse (t : Str) : Option (List AddrPart) :=
  match splitOn '/' t with
  | [] :: rest => parts rest
  | _ => none

example : parse "/ip4/127.0.0.1/tcp/1234".toList = some [⟨"ip4".toList, .ip4 127 0 0 1⟩, ⟨"tcp".toList, .number 1234⟩] ∧
    parse "/ip6/2001:db8::1/udp/+080/quic-v1".toList = some [⟨"ip6".toList, .ip6 [0x2001, 0xdb8, 0, 0, 0, 0, 0, 1]⟩,
      ⟨"udp".toList, .number 80⟩, ⟨"quic-v1".toList, .none⟩] ∧
    parse "/ip6/::".toList = some [⟨"ip6".toList, .ip6 [0, 0, 0, 0, 0, 0, 0, 0]⟩] ∧
    parse "/ip6/::ffff:1.2.3.4".toList = some [⟨"ip6".toList, .ip6 [0, 0, 0, 0, 0, 0xffff, 0x102, 0x304]⟩] ∧
    parse "/ip6/1:2:3:4:5:6:7:8".toList = some [⟨"ip6".toList, .ip6 [1, 2, 3, 4, 5, 6, 7, 8]⟩] ∧
    parse "/ip6/1:2:3:4:5:6:7::".toList = some [⟨"ip6".toList, .ip6 [1, 2, 3, 4, 5, 6, 7, 0]⟩] ∧
    parse "/ip6/1:2:3:4:5:6:7:8::".toList = none ∧ parse "/ip6/1::2::3".toList = none ∧ parse "/ip6/1.2.3.4".toList = none ∧
    parse "/ip6/12345::".toList = none ∧ parse "/ip6/:1".toList = none ∧ parse "/ip4/127.0.0.01".toList = none ∧
    parse "/ip4/1.2.3.256".toList = none ∧ parse "/ip4/1.2.3".toList = none ∧ parse "/tcp/65536".toList = none ∧
    parse "/tcp/-1".toList = none ∧ parse "/tcp".toList = none ∧ parse "/tcp/80/".toList = none ∧ parse "tcp/80".toList = none ∧
    (parse "/ip4/7.7.7.7/tcp/4242/p2p/QmYyQSo1c1Ym7orWxLYvCrM2EmxFTANf8wXmmE7DWjhx5N".toList).map List.length = some 3 ∧
    parse "/p2p/Qm0".toList = none ∧ parse "/p2p/11".toList = some [⟨"p2p".toList, .peer [0, 0]⟩] ∧ parse "/p2p/111".toList = none ∧
    parse "/dns4//tcp/80".toList = some [⟨"dns4".toList, .text []⟩, ⟨"tcp".toList, .number 80⟩] := by decide +kernel

end Verif.Multiaddr
