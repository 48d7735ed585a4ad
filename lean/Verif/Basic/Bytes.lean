import Mathlib.Tactic.Ring
/-!
# Byte strings and fixed-width integers
-/

namespace Zkenc

/-- Byte strings (`Vec<u8>`, `&[u8]`, `Uint8Array`). -/
abbrev Bytes := List UInt8

/-- Little-endian value of a byte string. -/
def leNat : Bytes → Nat
  | [] => 0
  | b :: bs => b.toNat + 256 * leNat bs

/-- `n`-byte little-endian encoding of `v` (truncating, i.e. of `v mod 256^n`). -/
def leBytes : Nat → Nat → Bytes
  | 0, _ => []
  | n + 1, v => UInt8.ofNat (v % 256) :: leBytes n (v / 256)

/-- Big-endian value of a byte string. -/
def beNat (bs : Bytes) : Nat := leNat bs.reverse

/-- `n`-byte big-endian encoding of `v` (truncating). -/
def beBytes (n v : Nat) : Bytes := (leBytes n v).reverse

/-- `u32::to_le_bytes` -/
def u32le (v : Nat) : Bytes := leBytes 4 v
/-- `u64::to_le_bytes` -/
def u64le (v : Nat) : Bytes := leBytes 8 v
/-- `u32::to_be_bytes` -/
def u32be (v : Nat) : Bytes := beBytes 4 v

@[simp] theorem leBytes_length (n v : Nat) : (leBytes n v).length = n := by
  induction n generalizing v with
  | zero => rfl
  | succ n ih => simp [leBytes, ih]

@[simp] theorem beBytes_length (n v : Nat) : (beBytes n v).length = n := by simp [beBytes]
@[simp] theorem u32le_length (v : Nat) : (u32le v).length = 4 := by simp [u32le]
@[simp] theorem u64le_length (v : Nat) : (u64le v).length = 8 := by simp [u64le]
@[simp] theorem u32be_length (v : Nat) : (u32be v).length = 4 := by simp [u32be]

theorem leNat_leBytes (n v : Nat) : leNat (leBytes n v) = v % 256 ^ n := by
  induction n generalizing v with
  | zero => simp [leBytes, leNat, Nat.mod_one]
  | succ n ih =>
    simp only [leBytes, leNat, ih]
    have h1 : (UInt8.ofNat (v % 256)).toNat = v % 256 := by
      simp
    rw [h1, Nat.pow_succ, Nat.mul_comm (256 ^ n) 256, Nat.mod_mul]

theorem leNat_leBytes_of_lt {n v : Nat} (h : v < 256 ^ n) : leNat (leBytes n v) = v := by
  rw [leNat_leBytes, Nat.mod_eq_of_lt h]

theorem leNat_lt (bs : Bytes) : leNat bs < 256 ^ bs.length := by
  induction bs with
  | nil => simp [leNat]
  | cons b bs ih =>
    have hb : b.toNat < 256 := b.toNat_lt
    simp only [leNat, List.length_cons, Nat.pow_succ]
    omega

theorem leBytes_leNat (bs : Bytes) : leBytes bs.length (leNat bs) = bs := by
  induction bs with
  | nil => rfl
  | cons b bs ih =>
    have hb : b.toNat < 256 := b.toNat_lt
    have h1 : (b.toNat + 256 * leNat bs) % 256 = b.toNat := by omega
    have h2 : (b.toNat + 256 * leNat bs) / 256 = leNat bs := by omega
    simp only [List.length_cons, leNat, leBytes, h1, h2, ih]
    simp

theorem leBytes_inj {n a b : Nat} (ha : a < 256 ^ n) (hb : b < 256 ^ n)
    (h : leBytes n a = leBytes n b) : a = b := by
  have := congrArg leNat h
  rwa [leNat_leBytes_of_lt ha, leNat_leBytes_of_lt hb] at this

theorem leNat_inj {a b : Bytes} (hl : a.length = b.length) (h : leNat a = leNat b) : a = b := by
  rw [← leBytes_leNat a, ← leBytes_leNat b, hl, h]

theorem leNat_append (a b : Bytes) : leNat (a ++ b) = leNat a + 256 ^ a.length * leNat b := by
  induction a with
  | nil => simp [leNat]
  | cons x xs ih => simp only [List.cons_append, leNat, ih, List.length_cons, Nat.pow_succ]; ring

@[simp] theorem leNat_replicate_zero (n : Nat) : leNat (List.replicate n 0) = 0 := by
  induction n with
  | zero => rfl
  | succ n ih => simp [List.replicate_succ, leNat, ih]

theorem beNat_beBytes (n v : Nat) : beNat (beBytes n v) = v % 256 ^ n := by
  simp [beNat, beBytes, leNat_leBytes]

theorem beNat_beBytes_of_lt {n v : Nat} (h : v < 256 ^ n) : beNat (beBytes n v) = v := by
  rw [beNat_beBytes, Nat.mod_eq_of_lt h]

theorem beNat_lt (bs : Bytes) : beNat bs < 256 ^ bs.length := by
  simpa [beNat] using leNat_lt bs.reverse

theorem leNat_u32le {v : Nat} (h : v < 2 ^ 32) : leNat (u32le v) = v :=
  leNat_leBytes_of_lt (by simpa using h)

theorem leNat_u64le {v : Nat} (h : v < 2 ^ 64) : leNat (u64le v) = v :=
  leNat_leBytes_of_lt (by simpa using h)

theorem beNat_u32be {v : Nat} (h : v < 2 ^ 32) : beNat (u32be v) = v :=
  beNat_beBytes_of_lt (by simpa using h)

theorem beNat_u32be_mod (v : Nat) : beNat (u32be v) = v % 2 ^ 32 := by
  simpa [u32be] using beNat_beBytes 4 v

end Zkenc
