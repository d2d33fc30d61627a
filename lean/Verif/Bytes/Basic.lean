import Mathlib.Data.List.Basic
import Mathlib.Tactic.Linarith

/-!
# Little-endian words

The code copies `uint64_t` and `double` values byte by byte (`memcpy`, `fwrite`, MPI bytes) on
little-endian machines. A 64-bit word is modelled by a number `< 2^64`; a `double` by its bit
pattern.
-/
namespace Verif.Bytes

/-- The `k` low bytes of `n`, least significant first. -/
def enc : (k n : Nat) → List UInt8
  | 0, _ => []
  | k + 1, n => UInt8.ofNat (n % 256) :: enc k (n / 256)

/-- The number with the given bytes. -/
def dec : List UInt8 → Nat
  | [] => 0
  | b :: bs => b.toNat + 256 * dec bs

@[simp] theorem enc_length (k n : Nat) : (enc k n).length = k := by
  induction k generalizing n with
  | zero => rfl
  | succ k ih => simp [enc, ih]

theorem dec_enc (k n : Nat) : dec (enc k n) = n % 256 ^ k := by
  induction k generalizing n with
  | zero => simp [enc, dec, Nat.mod_one]
  | succ k ih =>
    have : (UInt8.ofNat (n % 256)).toNat = n % 256 := by
      simp
    rw [enc, dec, ih, this, Nat.pow_succ, Nat.mul_comm (256 ^ k), Nat.mod_mul]

theorem dec_lt (bs : List UInt8) : dec bs < 256 ^ bs.length := by
  induction bs with
  | nil => simp [dec]
  | cons b bs ih =>
    have hb : b.toNat < 256 := b.toNat_lt
    rw [dec, List.length_cons, Nat.pow_succ]
    omega

theorem enc_dec (bs : List UInt8) : enc bs.length (dec bs) = bs := by
  induction bs with
  | nil => rfl
  | cons b bs ih =>
    have hb : b.toNat < 256 := b.toNat_lt
    rw [List.length_cons, enc, dec]
    have h1 : (b.toNat + 256 * dec bs) % 256 = b.toNat := by omega
    have h2 : (b.toNat + 256 * dec bs) / 256 = dec bs := by omega
    rw [h1, h2, ih]
    simp

/-- A 64-bit word, 8 bytes. -/
abbrev enc64 (n : Nat) : List UInt8 := enc 8 n

theorem dec_enc64 {n : Nat} (h : n < 2 ^ 64) : dec (enc64 n) = n := by
  rw [dec_enc, Nat.mod_eq_of_lt]; exact h

theorem enc64_inj {m n : Nat} (hm : m < 2 ^ 64) (hn : n < 2 ^ 64) (h : enc64 m = enc64 n) : m = n := by
  rw [← dec_enc64 hm, ← dec_enc64 hn, h]

end Verif.Bytes
