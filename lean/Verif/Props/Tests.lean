import Verif.Model.Read
import Verif.Model.Write
/-!
# The repository's own tests, run on the model

crates/sframe/tests/roundtrip.rs has three tests.  They are repeated here step by step, with the checks of the tests,
for both profiles and both byte orders (the tests use `NativeEndian`).  They are tests of the model, not proofs about it:
what the tests see of the crate is what the model computes.
-/

namespace Verif.Tests

/-- The calls of `row` with `?`, in order. -/
def rows (f : FuncDescBuilder) : List FrameRowBuilder → Except FrameRowError FuncDescBuilder
  | [] => .ok f
  | r :: rs => do rows (← f.row r) rs

/-- `sframe.fde(fde); sframe.build()?; SFrame::load(&data)`, then the first function and its first row. -/
def firstRow (dbg : Bool) (o : Endian) (f : Except FrameRowError FuncDescBuilder) :
    Rust (Option (SFrame o × FuncDescEntry o × FrameRowEntry o)) :=
  match f with
  | .error _ => .ok none
  | .ok f =>
    ((SFrameBuilder.new .new).fde f).bind fun b =>
    (b.build dbg o).bind fun
    | .error _ => .ok none
    | .ok data =>
      (SFrame.load o data).bind fun
      | .error _ => .ok none
      | .ok s =>
        match s.iter.next.1 with
        | none => .panic .unwrap
        | some e =>
          e.iter.next.bind fun x =>
          match x.1 with
          | none => .panic .unwrap
          | some (.error _) => .ok none
          | some (.ok r) => .ok (some (s, e, r))

/-- roundtrip.rs:10-35 -/
def roundtrip : Except FrameRowError FuncDescBuilder :=
  rows (.new .new 0x1000 0x100)
    [.new .sp 0x00 ⟨-8, some 32, some 24⟩, .new .fp 0x10 ⟨32, none, none⟩, .new .sp 0x20 ⟨64, some 17, none⟩]

/-- roundtrip.rs:6-62 `roundtrip` -/
example (dbg : Bool) (o : Endian) : ∃ s e r, firstRow dbg o roundtrip = .ok (some (s, e, r)) ∧
    s.numFdes = 1 ∧ s.numFres = 3 ∧ e.fdetype = .pcInc ∧ e.startAddress = 0x1000 ∧
    r.baseReg = .sp ∧ r.cfaOffset = .ok (-8) ∧ r.fpOffset s = .ok 24 ∧ r.raOffset s = .ok 32 ∧
    r.startAddressOffset = 0 := by
  cases dbg <;> cases o <;> exact ⟨_, _, _, rfl, by decide +kernel⟩

/-- roundtrip.rs:70-79 -/
def roundtripU16 : Except FrameRowError FuncDescBuilder :=
  rows (.new .new 0x1000 0x100000) [.new .sp 0x100 ⟨-0x100, some 32, some 24⟩]

/-- roundtrip.rs:64-105 `roundtrip_u16_offset` -/
example (dbg : Bool) (o : Endian) : ∃ s e r, firstRow dbg o roundtripU16 = .ok (some (s, e, r)) ∧
    s.numFdes = 1 ∧ s.numFres = 1 ∧ e.fdetype = .pcInc ∧ e.startAddress = 0x1000 ∧
    r.baseReg = .sp ∧ r.cfaOffset = .ok (-0x100) ∧ r.fpOffset s = .ok 24 ∧ r.raOffset s = .ok 32 ∧
    r.startAddressOffset = 0x100 := by
  cases dbg <;> cases o <;> exact ⟨_, _, _, rfl, by decide +kernel⟩

/-- roundtrip.rs:111-113 -/
def roundtripInvalid : Except FrameRowError FuncDescBuilder :=
  rows (.new .new 0x1000 0x100000) [.invalid 0x10]

/-- roundtrip.rs:107-135 `roundtrip_invalid_fre` -/
example (dbg : Bool) (o : Endian) : ∃ s e r, firstRow dbg o roundtripInvalid = .ok (some (s, e, r)) ∧
    e.fdetype = .pcInc ∧ e.startAddress = 0x1000 ∧
    r.cfaOffset.isOk = false ∧ (r.fpOffset s).isOk = false ∧ (r.raOffset s).isOk = false := by
  cases dbg <;> cases o <;> exact ⟨_, _, _, rfl, by decide +kernel⟩

end Verif.Tests
