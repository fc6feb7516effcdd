import Verif.Concrete.Blake3

/-
BLAKE2b (RFC 7693, without key) and Argon2id version 1.3 (RFC 9106): the password hash behind
`prople_crypto::passphrase::Passphrase::hash` (core/src/account/mod.rs:76-88; its cost parameters `m_cost`, `p_cost`,
`t_cost`, `output_len` are those of Argon2). The model leaves it open (`Env.kdf`); here it is written out.
-/

namespace Verif.Argon2
open Blake3 (leVal leBytes leBytes_length)

/-! ### BLAKE2b -/

/-- Rotation to the right of a 64 bit word. -/
def rotr (x n : Nat) : Nat := (x >>> n) ||| (x <<< (64 - n) % 2 ^ 64)

/-- RFC 7693, 2.6: the initial value, that of SHA-512. -/
def IV : List Nat :=
  [0x6a09e667f3bcc908, 0xbb67ae8584caa73b, 0x3c6ef372fe94f82b, 0xa54ff53a5f1d36f1,
   0x510e527fade682d1, 0x9b05688c2b3e6c1f, 0x1f83d9abfb41bd6b, 0x5be0cd19137e2179]

/-- RFC 7693, 2.7: the message schedule. -/
def sigma : List (List Nat) :=
  [[0, 1, 2, 3, 4, 5, 6, 7, 8, 9, 10, 11, 12, 13, 14, 15],
   [14, 10, 4, 8, 9, 15, 13, 6, 1, 12, 0, 2, 11, 7, 5, 3],
   [11, 8, 12, 0, 5, 2, 15, 13, 10, 14, 3, 6, 7, 1, 9, 4],
   [7, 9, 3, 1, 13, 12, 11, 14, 2, 6, 5, 10, 4, 0, 15, 8],
   [9, 0, 5, 7, 2, 4, 10, 15, 14, 1, 11, 12, 6, 8, 3, 13],
   [2, 12, 6, 10, 0, 11, 8, 3, 4, 13, 7, 5, 15, 14, 1, 9],
   [12, 5, 1, 15, 14, 13, 4, 10, 0, 7, 6, 3, 9, 2, 8, 11],
   [13, 11, 7, 14, 12, 1, 3, 9, 5, 0, 15, 4, 8, 6, 2, 10],
   [6, 15, 14, 9, 11, 3, 0, 8, 12, 2, 13, 7, 1, 4, 10, 5],
   [10, 2, 8, 4, 7, 6, 1, 5, 15, 11, 9, 14, 3, 12, 13, 0],
   [0, 1, 2, 3, 4, 5, 6, 7, 8, 9, 10, 11, 12, 13, 14, 15],
   [14, 10, 4, 8, 9, 15, 13, 6, 1, 12, 0, 2, 11, 7, 5, 3]]

/-- RFC 7693, 3.1: the mixing function, on four words of the state, with two message words. -/
def mix (s : List Nat) (i j k l x y : Nat) : List Nat :=
  let a := (s.getD i 0 + s.getD j 0 + x) % 2 ^ 64
  let d := rotr (s.getD l 0 ^^^ a) 32
  let c := (s.getD k 0 + d) % 2 ^ 64
  let b := rotr (s.getD j 0 ^^^ c) 24
  let a' := (a + b + y) % 2 ^ 64
  let d' := rotr (d ^^^ a') 16
  let c' := (c + d') % 2 ^ 64
  let b' := rotr (b ^^^ c') 63
  (((s.set i a').set j b').set k c').set l d'

/-- One round: columns, then diagonals; `w` gives the message words. -/
def blakeRound (w : Nat → Nat) (s : List Nat) : List Nat :=
  let s := mix s 0 4 8 12 (w 0) (w 1)
  let s := mix s 1 5 9 13 (w 2) (w 3)
  let s := mix s 2 6 10 14 (w 4) (w 5)
  let s := mix s 3 7 11 15 (w 6) (w 7)
  let s := mix s 0 5 10 15 (w 8) (w 9)
  let s := mix s 1 6 11 12 (w 10) (w 11)
  let s := mix s 2 7 8 13 (w 12) (w 13)
  mix s 3 4 9 14 (w 14) (w 15)

/-- Consecutive pieces of `n` elements. -/
def pieces {α : Type} (n : Nat) : Nat → List α → List (List α)
  | 0, _ => []
  | fuel + 1, l => if l.isEmpty then [] else l.take n :: pieces n fuel (l.drop n)

/-- Little-endian 64 bit words. -/
def words (b : Bytes) : List Nat := (pieces 8 b.length b).map leVal

/-- RFC 7693, 3.2: the compression function; `t` bytes were taken in, `last` is set on the last block. -/
def compress (h : List Nat) (block : Bytes) (t : Nat) (last : Bool) : List Nat :=
  let m := words (block ++ List.replicate (128 - block.length) 0)
  let v := h ++ IV.take 4 ++ [IV.getD 4 0 ^^^ t % 2 ^ 64, IV.getD 5 0 ^^^ t / 2 ^ 64 % 2 ^ 64,
    if last then IV.getD 6 0 ^^^ (2 ^ 64 - 1) else IV.getD 6 0, IV.getD 7 0]
  let v := sigma.foldl (fun v p => blakeRound (fun i => m.getD (p.getD i 0) 0) v) v
  (List.range 8).map fun i => h.getD i 0 ^^^ v.getD i 0 ^^^ v.getD (i + 8) 0

/-- The blocks one after the other, `t` bytes into the message. -/
def blakeBlocks (h : List Nat) (t : Nat) : List Bytes → List Nat
  | [] => compress h [] t true
  | [b] => compress h b (t + b.length) true
  | b :: bs => blakeBlocks (compress h b (t + b.length) false) (t + b.length) bs

/-- RFC 7693, 3.3: BLAKE2b with `n` bytes of output (at most 64), without key. -/
def blake2b (n : Nat) (m : Bytes) : Bytes :=
  let h := IV.set 0 (IV.getD 0 0 ^^^ 0x01010000 ^^^ n)
  ((blakeBlocks h 0 (pieces 128 m.length m)).flatMap (leBytes 8)).take n

/-! ### Argon2 -/

/-- RFC 9106, 3.3: the words `V_1`, `V_2`, … cut to 32 bytes but for the last. -/
def extend : Nat → Nat → Bytes → Bytes
  | 0, _, _ => []
  | fuel + 1, n, v => if n ≤ 64 then blake2b n v else
      let w := blake2b 64 v
      w.take 32 ++ extend fuel (n - 32) w

/-- RFC 9106, 3.3: the variable length hash function. -/
def longHash (n : Nat) (x : Bytes) : Bytes := extend n n (leBytes 4 n ++ x)

/-- RFC 9106, 3.6: as `mix`, with the product of the lower halves added. -/
def mixMul (s : List Nat) (i j k l : Nat) : List Nat :=
  let fb := fun x y => (x + y + 2 * (x % 2 ^ 32) * (y % 2 ^ 32)) % 2 ^ 64
  let a := fb (s.getD i 0) (s.getD j 0)
  let d := rotr (s.getD l 0 ^^^ a) 32
  let c := fb (s.getD k 0) d
  let b := rotr (s.getD j 0 ^^^ c) 24
  let a' := fb a b
  let d' := rotr (d ^^^ a') 16
  let c' := fb c d'
  let b' := rotr (b ^^^ c') 63
  (((s.set i a').set j b').set k c').set l d'

/-- RFC 9106, 3.6: the permutation `P` of sixteen words. -/
def permute (s : List Nat) : List Nat :=
  let s := mixMul s 0 4 8 12
  let s := mixMul s 1 5 9 13
  let s := mixMul s 2 6 10 14
  let s := mixMul s 3 7 11 15
  let s := mixMul s 0 5 10 15
  let s := mixMul s 1 6 11 12
  let s := mixMul s 2 7 8 13
  mixMul s 3 4 9 14

/-- `permute` on each of the eight rows of a block of 128 words. -/
def rows (b : List Nat) : List Nat := (pieces 16 8 b).flatMap permute

/-- A block is a square of eight times eight pairs of words; rows and columns exchanged. -/
def transpose (b : List Nat) : List Nat :=
  (List.range 8).flatMap fun c => (List.range 8).flatMap fun r => [b.getD (16 * r + 2 * c) 0, b.getD (16 * r + 2 * c + 1) 0]

/-- Bitwise sum of blocks. -/
def xor (x y : List Nat) : List Nat := List.zipWith (· ^^^ ·) x y

/-- RFC 9106, 3.5: the compression function `G`. -/
def g (x y : List Nat) : List Nat :=
  let r := xor x y
  xor r (transpose (rows (transpose (rows r))))

/-- A block of zeros. -/
def zeros : List Nat := List.replicate 128 0

/-- What is fixed in a computation: lanes, length of a lane, passes. -/
structure Shape where
  lanes : Nat
  len : Nat
  passes : Nat

/-- Length of a segment, a quarter of a lane. -/
def Shape.seg (s : Shape) : Nat := s.len / 4

/-- RFC 9106, 3.4.1.2: a block of pseudo-random words for the segment, the `counter`th. -/
def addresses (s : Shape) (pass lane slice counter : Nat) : List Nat :=
  let z := [pass, lane, slice, s.lanes * s.len, s.passes, 2, counter] ++ List.replicate 121 0
  g zeros (g zeros z)

/-- RFC 9106, 3.4.2: lane and column of the reference block, from the pseudo-random word. -/
def reference (s : Shape) (pass lane slice index word : Nat) : Nat × Nat :=
  let j1 := word % 2 ^ 32
  let j2 := word / 2 ^ 32
  let l := if pass = 0 ∧ slice = 0 then lane else j2 % s.lanes
  let done := if pass = 0 then slice * s.seg else s.len - s.seg
  let area := if l = lane then done + index - 1 else if index = 0 then done - 1 else done
  let x := j1 * j1 / 2 ^ 32
  let y := area * x / 2 ^ 32
  let start := if pass = 0 then 0 else (slice + 1) % 4 * s.seg
  (l, (start + (area - 1 - y)) % s.len)

/-- RFC 9106, 3.4.1.3: pseudo-random words are made from a counter in the first half of the first pass, and taken from the
previous block afterwards. -/
def fillBlock (s : Shape) (pass lane slice : Nat) (mem : List (List Nat)) (index : Nat) : List (List Nat) :=
  let col := slice * s.seg + index
  let prev := mem.getD (lane * s.len + (col + s.len - 1) % s.len) []
  let word := if pass = 0 ∧ slice < 2 then (addresses s pass lane slice (index / 128 + 1)).getD (index % 128) 0 else prev.getD 0 0
  let (l, c) := reference s pass lane slice index word
  let new := g prev (mem.getD (l * s.len + c) [])
  let at' := lane * s.len + col
  mem.set at' (if pass = 0 then new else xor new (mem.getD at' []))

/-- RFC 9106, 3.2: slice by slice, lane by lane; the first two blocks of each lane are there at the start. -/
def fill (s : Shape) (mem : List (List Nat)) : List (List Nat) :=
  (List.range s.passes).foldl (fun mem pass =>
    (List.range 4).foldl (fun mem slice =>
      (List.range s.lanes).foldl (fun mem lane =>
        ((List.range s.seg).drop (if pass = 0 ∧ slice = 0 then 2 else 0)).foldl (fillBlock s pass lane slice) mem) mem) mem) mem

/-- A text with its length before it. -/
def counted (b : Bytes) : Bytes := leBytes 4 b.length ++ b

/-- RFC 9106, 3.2, for Argon2id (type 2) in version 0x13: `m` is the memory in KiB, `t` the number of passes, `p` the number of
lanes, `n` the number of bytes; `secret` and `ad` are empty for `prople_crypto`. -/
def argon2id (m t p n : Nat) (password salt secret ad : Bytes) : Bytes :=
  let h0 := blake2b 64 (leBytes 4 p ++ leBytes 4 n ++ leBytes 4 m ++ leBytes 4 t ++ leBytes 4 0x13 ++ leBytes 4 2 ++
    counted password ++ counted salt ++ counted secret ++ counted ad)
  let s : Shape := ⟨p, 4 * (m / (4 * p)), t⟩
  let start := fun lane col => words (longHash 1024 (h0 ++ leBytes 4 col ++ leBytes 4 lane))
  let mem := (List.range p).flatMap fun lane => start lane 0 :: start lane 1 :: List.replicate (s.len - 2) zeros
  let mem := fill s mem
  let last := (List.range p).foldl (fun b lane => xor b (mem.getD (lane * s.len + s.len - 1) [])) zeros
  longHash n (last.flatMap (leBytes 8))

/-! ### Lengths -/

theorem compress_length (h : List Nat) (b : Bytes) (t : Nat) (last : Bool) : (compress h b t last).length = 8 := by
  simp [compress]

theorem blakeBlocks_length (h : List Nat) (t : Nat) (bs : List Bytes) : (blakeBlocks h t bs).length = 8 := by
  fun_induction blakeBlocks h t bs with
  | case1 => exact compress_length ..
  | case2 => exact compress_length ..
  | case3 _ _ _ _ _ ih => exact ih

theorem blake2b_length {n : Nat} (h : n ≤ 64) (m : Bytes) : (blake2b n m).length = n := by
  simp only [blake2b, List.length_take, Blake3.flatMap_leBytes_length, blakeBlocks_length]
  omega

theorem extend_length (fuel n : Nat) (v : Bytes) (h : n ≤ fuel) : (extend fuel n v).length = n := by
  induction fuel generalizing n v with
  | zero => simp [extend]; omega
  | succ fuel ih =>
    rw [extend]
    split
    · rename_i h; exact blake2b_length h v
    · simp only [List.length_append, List.length_take, blake2b_length (Nat.le_refl 64)]
      rw [ih _ _ (by omega)]
      omega

theorem longHash_length (n : Nat) (x : Bytes) : (longHash n x).length = n := extend_length _ _ _ (Nat.le_refl _)

theorem argon2id_length (m t p n : Nat) (password salt secret ad : Bytes) :
    (argon2id m t p n password salt secret ad).length = n := longHash_length _ _

/-! ### Test vectors

BLAKE2b of `abc` (RFC 7693, appendix A) by the kernel; Argon2id (RFC 9106, 5.3) by evaluation only, which is a test and not a
proof: the kernel would need too long. -/

example : hexEncode (blake2b 64 (utf8Encode "abc".toList)) =
    ("ba80a53f981c4d0d6a2797b69f12f6e94c212f14685ac4b74b12bb6fdbffa2d1" ++
     "7d87c5392aab792dc252d5de4533cc9518d38aa8dbf1925ab92386edd4009923").toList := by
  decide +kernel

#guard hexEncode (argon2id 32 3 4 32 (List.replicate 32 1) (List.replicate 16 2) (List.replicate 8 3) (List.replicate 12 4)) =
  "0d640df58d78766c08c037a34a8b53c9d01ef0452d75b65eb52520e96b01e659".toList

end Verif.Argon2
