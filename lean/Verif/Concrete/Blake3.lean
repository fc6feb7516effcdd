import Verif.Concrete.Sha2

/-
BLAKE3 (hash mode, 32 byte output), the function behind `blake3::hash` (core/src/hashlink.rs:14,30,
core/src/did/mod.rs:67), after the BLAKE3 paper, section 2. The model leaves it open (`Env.blake3`).
-/

namespace Verif.Blake3
open Sha2 (pieces)

/-- Little-endian value of bytes. -/
def leVal : Bytes → Nat
  | [] => 0
  | b :: bs => b.toNat + 256 * leVal bs

/-- `n` bytes of a number, little-endian. -/
def leBytes : Nat → Nat → Bytes
  | 0, _ => []
  | n + 1, x => byte (x % 256) :: leBytes n (x / 256)

theorem leBytes_length (n x : Nat) : (leBytes n x).length = n := by
  induction n generalizing x with
  | zero => rfl
  | succ n ih => simp [leBytes, ih]

/-- Rotation to the right of a 32 bit word. -/
def rotr (x n : Nat) : Nat := (x >>> n) ||| (x <<< (32 - n) % 2 ^ 32)

/-- Sum of 32 bit words. -/
def add (x y : Nat) : Nat := (x + y) % 2 ^ 32

/-- Table 1: the initial value, that of SHA-256. -/
def IV : List Nat :=
  [0x6a09e667, 0xbb67ae85, 0x3c6ef372, 0xa54ff53a, 0x510e527f, 0x9b05688c, 0x1f83d9ab, 0x5be0cd19]

/-- Table 2: the permutation of the message words between rounds. -/
def permutation : List Nat := [2, 6, 3, 10, 7, 0, 4, 13, 1, 11, 12, 5, 9, 14, 15, 8]

/-- Table 3: domain flags. -/
def CHUNK_START : Nat := 1
/-- See `CHUNK_START`. -/
def CHUNK_END : Nat := 2
/-- See `CHUNK_START`. -/
def PARENT : Nat := 4
/-- See `CHUNK_START`. -/
def ROOT : Nat := 8

/-- The function `G` on four words of the state, with two message words. -/
def g (s : List Nat) (i j k l x y : Nat) : List Nat :=
  let a := add (add (s.getD i 0) (s.getD j 0)) x
  let d := rotr (s.getD l 0 ^^^ a) 16
  let c := add (s.getD k 0) d
  let b := rotr (s.getD j 0 ^^^ c) 12
  let a' := add (add a b) y
  let d' := rotr (d ^^^ a') 8
  let c' := add c d'
  let b' := rotr (b ^^^ c') 7
  (((s.set i a').set j b').set k c').set l d'

/-- One round: columns, then diagonals. -/
def round (s m : List Nat) : List Nat :=
  let w := fun i => m.getD i 0
  let s := g s 0 4 8 12 (w 0) (w 1)
  let s := g s 1 5 9 13 (w 2) (w 3)
  let s := g s 2 6 10 14 (w 4) (w 5)
  let s := g s 3 7 11 15 (w 6) (w 7)
  let s := g s 0 5 10 15 (w 8) (w 9)
  let s := g s 1 6 11 12 (w 10) (w 11)
  let s := g s 2 7 8 13 (w 12) (w 13)
  g s 3 4 9 14 (w 14) (w 15)

/-- Rounds, with the message permuted after each. -/
def rounds : Nat → List Nat → List Nat → List Nat
  | 0, s, _ => s
  | n + 1, s, m => rounds n (round s m) (permutation.map fun i => m.getD i 0)

/-- The compression function, first half of the output: a chaining value. -/
def compress (cv m : List Nat) (counter len flags : Nat) : List Nat :=
  let s := rounds 7 (cv ++ IV.take 4 ++ [counter % 2 ^ 32, counter / 2 ^ 32 % 2 ^ 32, len, flags]) m
  (List.range 8).map fun i => s.getD i 0 ^^^ s.getD (i + 8) 0

/-- The sixteen words of a block, filled up with zeros. -/
def blockWords (b : Bytes) : List Nat :=
  (pieces 4 16 (b ++ List.replicate (64 - b.length) 0)).map leVal

/-- The blocks of a chunk from the given chaining value on; `first` is `CHUNK_START` or nothing. -/
def chunkBlocks (counter last : Nat) : List Nat → Nat → List Bytes → List Nat
  | cv, first, [] => compress cv (blockWords []) counter 0 (first ||| CHUNK_END ||| last)
  | cv, first, [b] => compress cv (blockWords b) counter b.length (first ||| CHUNK_END ||| last)
  | cv, first, b :: bs => chunkBlocks counter last (compress cv (blockWords b) counter b.length first) 0 bs

/-- Chaining value of a chunk; `last` is `ROOT` or nothing. -/
def chunk (counter last : Nat) (b : Bytes) : List Nat := chunkBlocks counter last IV CHUNK_START (pieces 64 16 b)

/-- The tree over chunks: the left subtree is the largest complete one that leaves something to the right. -/
def tree : Nat → Nat → Nat → List Bytes → List Nat
  | _, counter, last, [] => chunk counter last []
  | 0, counter, last, c :: _ => chunk counter last c
  | _ + 1, counter, last, [c] => chunk counter last c
  | fuel + 1, counter, last, cs =>
    let n := 2 ^ Nat.log2 (cs.length - 1)
    let left := tree fuel counter 0 (cs.take n)
    let right := tree fuel (counter + n) 0 (cs.drop n)
    compress IV (left ++ right) 0 64 (PARENT ||| last)

/-- `blake3::hash`. -/
def blake3 (m : Bytes) : Bytes :=
  let cs := pieces 1024 m.length m
  (tree cs.length 0 ROOT cs).flatMap (leBytes 4)

theorem compress_length (cv m : List Nat) (counter len flags : Nat) : (compress cv m counter len flags).length = 8 := by
  simp [compress]

theorem chunkBlocks_length (counter last : Nat) (cv : List Nat) (first : Nat) (bs : List Bytes) :
    (chunkBlocks counter last cv first bs).length = 8 := by
  fun_induction chunkBlocks counter last cv first bs with
  | case1 => exact compress_length ..
  | case2 => exact compress_length ..
  | case3 _ _ _ _ _ ih => exact ih

theorem tree_length (fuel counter last : Nat) (cs : List Bytes) : (tree fuel counter last cs).length = 8 := by
  fun_cases tree fuel counter last cs with
  | case1 => exact chunkBlocks_length ..
  | case2 => exact chunkBlocks_length ..
  | case3 => exact chunkBlocks_length ..
  | case4 => exact compress_length ..

theorem flatMap_leBytes_length (n : Nat) (l : List Nat) : (l.flatMap (leBytes n)).length = n * l.length := by
  induction l with
  | nil => rfl
  | cons x l ih => rw [List.flatMap_cons, List.length_append, ih, leBytes_length, List.length_cons, Nat.mul_succ, Nat.add_comm]

theorem blake3_length (m : Bytes) : (blake3 m).length = 32 := by
  simp only [blake3, flatMap_leBytes_length, tree_length]

/-! ### The official test vectors: the empty input, less than a block, one chunk, three chunks

Quoted from memory (there is no network here); evaluation confirms them. -/

/-- The input of the official test vectors. -/
def testInput (n : Nat) : Bytes := (List.range n).map fun i => byte (i % 251)

example : hexEncode (blake3 []) = "af1349b9f5f9a1a6a0404dea36dcc9499bcb25c9adc112b7cc9a93cae41f3262".toList := by
  decide +kernel

example : hexEncode (blake3 (utf8Encode "abc".toList)) =
    "6437b3ac38465133ffb63b75273a8db548c558465d79db03fd359c6cd5bd9d85".toList := by decide +kernel

example : hexEncode (blake3 (testInput 1024)) =
    "42214739f095a406f3fc83deb889744ac00df831c10daa55189b5d121c855af7".toList := by decide +kernel

example : hexEncode (blake3 (testInput 2049)) =
    "5f4d72f40d7a5f82b15ca2b2e44b1de3c2ef86c426c95c1af0b6879522563030".toList := by decide +kernel

end Verif.Blake3
