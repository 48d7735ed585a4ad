import Verif.Basic.Bytes
import Verif.Basic.Res
import Verif.Spec.Tool
/-!
# Symmetric encryption — `packages/zkenc-cli/src/crypto.rs`, `packages/zkenc-js/src/crypto.ts`

AES itself is an arbitrary function on 16-byte blocks; the modes of operation (GCM, CTR) are written out.
-/

namespace Zkenc

/-- `E k b`: the AES-256 block function (`aes::Aes256`, WebCrypto AES), arbitrary here. `maxEnc`/`maxDec` are the largest plaintext
and ciphertext (without tag) the libraries accept (`aes_gcm`: `2^36` and `2^36 + 16`; WebCrypto: `2^39 - 256`). -/
structure Cipher where
  E : Bytes → Bytes → Bytes
  E_len : ∀ k b, (E k b).length = 16
  maxEnc : Tool → Nat
  maxDec : Tool → Nat
  max_le : ∀ t, maxEnc t ≤ maxDec t

/-- Byte-wise exclusive or. -/
def xorBytes (a b : Bytes) : Bytes := List.zipWith (· ^^^ ·) a b

/-- The first `n` bytes of the blocks `blk 0, blk 1, …`. -/
def keystream (blk : Nat → Bytes) (n : Nat) : Bytes := ((List.range ((n + 15) / 16)).map blk).flatten.take n

/-- `apply_keystream`: the same operation encrypts and decrypts. -/
def applyKeystream (blk : Nat → Bytes) (m : Bytes) : Bytes := xorBytes m (keystream blk m.length)

/-! ## GCM (NIST SP 800-38D, 96-bit nonce, 128-bit tag, no associated data) -/

/-- Counter blocks for the message: `inc32(J0), …` with `J0 = nonce ‖ 0x00000001`. -/
def gcmBlock (c : Cipher) (k nonce : Bytes) (i : Nat) : Bytes := c.E k (nonce ++ beBytes 4 (2 + i))

/-- One step of the multiplication in GF(2^128): state `(Z, V)`, bit of the multiplier. -/
def gfStep (s : Nat × Nat) (bit : Bool) : Nat × Nat :=
  (if bit then s.1 ^^^ s.2 else s.1, if s.2 % 2 = 1 then s.2 / 2 ^^^ 0xE1000000000000000000000000000000 else s.2 / 2)

/-- Multiplication in GF(2^128) in the bit order of GCM. -/
def gfMul (x y : Nat) : Nat := (((List.range 128).map fun i => x.testBit (127 - i)).foldl gfStep (0, y)).1

/-- Zero padding to a multiple of 16 bytes. -/
def pad16 (b : Bytes) : Bytes := b ++ List.replicate ((16 - b.length % 16) % 16) 0

/-- GHASH of `n` blocks. -/
def ghashBlocks (h : Nat) : Nat → Bytes → Nat → Nat
  | 0, _, y => y
  | n + 1, b, y => ghashBlocks h n (b.drop 16) (gfMul (y ^^^ beNat (b.take 16)) h)

/-- The tag over ciphertext `ct`. -/
def gcmTag (c : Cipher) (k nonce ct : Bytes) : Bytes :=
  let blocks := pad16 ct ++ (beBytes 8 0 ++ beBytes 8 (8 * ct.length))
  let s := ghashBlocks (beNat (c.E k (List.replicate 16 0))) (blocks.length / 16) blocks 0
  xorBytes (beBytes 16 s) (c.E k (nonce ++ [0, 0, 0, 1]))

/-- `cipher.encrypt(nonce, plaintext)` without the size check: ciphertext followed by the tag (crypto.rs 38-40; crypto.ts 32-40). -/
def gcmSeal (c : Cipher) (k nonce m : Bytes) : Bytes :=
  let ct := applyKeystream (gcmBlock c k nonce) m
  ct ++ gcmTag c k nonce ct

/-- `cipher.decrypt(nonce, data)` without the size check (crypto.rs 78; crypto.ts 85-93). -/
def gcmOpen (c : Cipher) (k nonce d : Bytes) : Option Bytes :=
  if d.length < 16 then none else
  let ct := d.take (d.length - 16)
  if gcmTag c k nonce ct = d.drop (d.length - 16) then some (applyKeystream (gcmBlock c k nonce) ct) else none

/-- `encrypt_gcm` (crypto.rs 25-47) and `aesGcmEncrypt` (crypto.ts 12-49). The random nonce is an argument. -/
def encryptGcm (c : Cipher) (t : Tool) (key nonce m : Bytes) : Res Bytes :=
  if key.length ≠ 32 then Res.fail "Key must be 32 bytes" else
  if c.maxEnc t < m.length then Res.fail "Encryption failed" else
  .ok (nonce ++ gcmSeal c key nonce m)

/-- `decrypt_gcm` (crypto.rs 57-86) and `aesGcmDecrypt` (crypto.ts 58-99). -/
def decryptGcm (c : Cipher) (t : Tool) (key data : Bytes) : Res Bytes :=
  if key.length ≠ 32 then Res.fail "Key must be 32 bytes" else
  if data.length < 28 then Res.fail "Data too short" else
  if c.maxDec t < data.length - 28 then Res.fail "Decryption failed" else
  match gcmOpen c key (data.take 12) (data.drop 12) with
  | some m => .ok m
  | none => Res.fail "Decryption failed"

/-! ## CTR (crypto.rs only) -/

/-- Keystream block `i` of `Ctr64BE`: the last 8 bytes of the IV are a wrapping big-endian counter (crypto.rs 10). -/
def ctrBlock (c : Cipher) (k iv : Bytes) (i : Nat) : Bytes := c.E k (iv.take 8 ++ beBytes 8 (beNat (iv.drop 8) + i))

/-- `encrypt_ctr` (crypto.rs 102-125). The random IV is an argument. -/
def encryptCtr (c : Cipher) (key iv m : Bytes) : Res Bytes :=
  if key.length ≠ 32 then Res.fail "Key must be 32 bytes" else
  .ok (iv ++ applyKeystream (ctrBlock c key iv) m)

/-- `decrypt_ctr` (crypto.rs 135-160). -/
def decryptCtr (c : Cipher) (key data : Bytes) : Res Bytes :=
  if key.length ≠ 32 then Res.fail "Key must be 32 bytes" else
  if data.length < 16 then Res.fail "Data too short" else
  .ok (applyKeystream (ctrBlock c key (data.take 16)) (data.drop 16))

end Zkenc
