import Verif.Base

/-
The `multihash` crate (version ~0.19, core/Cargo.toml:22), as used by core/src/hashlink.rs:15,41.
-/

namespace Verif

/-- Unsigned LEB128 varint (crate unsigned-varint). -/
def uvarint (n : Nat) : Bytes :=
  if n < 128 then [byte n] else byte (n % 128 + 128) :: uvarint (n / 128)
termination_by n
decreasing_by omega

/-- `Multihash::<32>::wrap(code, digest)` followed by `.to_bytes()`; `none` (an error) when the digest is
longer than 32 bytes. -/
def multihash32 (code : Nat) (digest : Bytes) : Option Bytes :=
  if digest.length ≤ 32 then some (uvarint code ++ uvarint digest.length ++ digest) else none

theorem uvarint_small {n : Nat} (h : n < 128) : uvarint n = [byte n] := by
  rw [uvarint, if_pos h]

end Verif
