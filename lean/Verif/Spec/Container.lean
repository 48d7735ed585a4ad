import Verif.Model.Container
/-!
# The documented format of a combined ciphertext

`[flag(1)][witnessLen(4, big-endian)][witnessCT][publicLen(4)?][publicInput?][encryptedMsg]` (commands.rs 238, zkenc.ts 336-338).
-/

namespace Zkenc.ContainerSpec

/-- `Layout b p`: the byte string `b` consists of exactly the parts `p`; a public input is present iff the flag is 1; both lengths fit. -/
inductive Layout : Bytes → Parts → Prop
  | withPublic (w p m : Bytes) (lw lp : Bytes) (hw : lw.length = 4) (hp : lp.length = 4) (ew : beNat lw = w.length)
      (ep : beNat lp = p.length) : Layout (1 :: (lw ++ (w ++ (lp ++ (p ++ m))))) ⟨1, w, some p, m⟩
  | without (flag : UInt8) (hf : flag ≠ 1) (w m : Bytes) (lw : Bytes) (hw : lw.length = 4) (ew : beNat lw = w.length) :
      Layout (flag :: (lw ++ (w ++ m))) ⟨flag, w, none, m⟩

/-- `Overrun b p`: flag 1, complete witness part, and a public-input length that reaches beyond the end of the data. -/
inductive Overrun : Bytes → Parts → Prop
  | mk (w p : Bytes) (lw lp : Bytes) (hw : lw.length = 4) (hp : lp.length = 4) (ew : beNat lw = w.length) (ep : p.length < beNat lp) :
      Overrun (1 :: (lw ++ (w ++ (lp ++ p)))) ⟨1, w, some p, []⟩

end Zkenc.ContainerSpec
