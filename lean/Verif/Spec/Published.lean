import Verif.Spec.Image
/-!
# The function info byte of the SFrame format

The table "SFrame FDE info word" of the format document that raw/v2.rs:3-4 and raw/v1.rs:7-8 refer to
(and of `SFRAME_V1_FUNC_INFO` in the header `sframe.h` of binutils).  The document is not in the
repository; the table is

| bits | name      | meaning                                              |
|------|-----------|------------------------------------------------------|
| 0-3  | fretype   | 0, 1, 2: row starts of one, two, four bytes          |
| 4    | fdetype   | 0: PCINC, 1: PCMASK                                  |
| 5    | pauth_key | 0: key A, 1: key B                                   |
| 6-7  | unused    |                                                      |
-/

namespace Verif.Spec.Published

/-- The row type, bits 0-3. -/
def freType (info : Nat) : Nat := info % 16

/-- The function type, bit 4: is it PCMASK? -/
def isPcMask (info : Nat) : Prop := info / 16 % 2 = 1

/-- The key, bit 5: is it key B? -/
def isKeyB (info : Nat) : Prop := info / 32 % 2 = 1

/-- The row type is one the format has. -/
def Valid (info : Nat) : Prop := freType info ≤ 2

instance (info : Nat) : Decidable (isPcMask info) := inferInstanceAs (Decidable (_ = _))
instance (info : Nat) : Decidable (isKeyB info) := inferInstanceAs (Decidable (_ = _))
instance (info : Nat) : Decidable (Valid info) := inferInstanceAs (Decidable (_ ≤ _))

/-- The number of the row type for row starts of `w` bytes. -/
def typeOfWidth (w : Nat) : Nat := match w with | 1 => 0 | 2 => 1 | _ => 2

/-- The info byte of function `i` of a section. -/
def infoOf (o : Endian) (s : List U8) (i : Nat) : Nat := uintAt o s (fdePos o s i + 16) 1

/-- The reader takes entry `e`, whose info byte is `info`, for what the format says it is. -/
structure TakenAs {o : Endian} (e : FuncDescEntry o) (info : Nat) : Prop where
  type : e.fdetype ≠ .pcInc ↔ isPcMask info
  key : e.pauthKey = .B ↔ isKeyB info
  rows : (FdeInfo.fretype e.fde.info).toU8.toNat = freType info

/-- An info byte says what function `f` of the builder is. -/
structure Says (info : Nat) (f : FuncDescBuilder) : Prop where
  type : isPcMask info ↔ f.repSize.isSome
  key : isKeyB info ↔ f.pauthKey = .B
  rows : freType info = typeOfWidth (startWidth f)

end Verif.Spec.Published
