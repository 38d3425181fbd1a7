import Verif.Model.Dump
import Verif.Props.Moving
/-!
# C132: the listing of moved code

What `sframedump` prints for moved code is what it prints for the code, up to the addresses.
-/

namespace Verif
namespace Spec

/-- A line of a listing, with its address moved. -/
def lineMoved (d : Int) : DumpLine → DumpLine
  | .func i pc n => .func i (pc + BitVec.ofInt 32 d) n
  | .row start base cfa fp ra mangled => .row (start + BitVec.ofInt 32 d) base cfa fp ra mangled
  | l => l

/-- A listing, with its addresses moved.  The end of the run is the same. -/
def movedListing (d : Int) (x : Printed) : Printed := (x.1.map (lineMoved d), x.2)

/-- No address of a function that starts at `start` and is `size` long exceeds an `i32`. -/
def Within (start : Int) (size : Nat) : Prop := InI32 start ∧ start + size ≤ 2147483648

end Spec
open Spec

variable {o : Endian}

theorem movedListing_andThen (d : Int) (x y : Printed) :
    (movedListing d x).andThen (movedListing d y) = movedListing d (x.andThen y) := by
  obtain ⟨ls, r⟩ := x
  cases r with
  | ok u => simp [movedListing, Printed.andThen]
  | panic p => rfl
  | diverge => rfl

/-- A row that is read belongs to the function and starts inside it. -/
theorem next_row {it it' : FrameRowIter o} {r : FrameRowEntry o}
    (h : it.next = .ok (some (.ok r), it')) :
    r.fde = it.fde ∧ r.startAddressOffset.toNat < it.fde.size.toNat ∧ it'.fde = it.fde := by
  unfold FrameRowIter.next at h
  split at h
  · cases h
  · obtain ⟨x, hx, h⟩ := Rust.bind_eq_ok.1 h
    cases x with
    | error e => cases h
    | ok p =>
      obtain ⟨r', rest⟩ := p
      cases h
      have hs := freLoad_spec o it.fde it.fres
      cases hd : decodeFre o it.fde.info.toNat it.fres with
      | error e =>
        rw [hd] at hs
        simp only at hs
        rw [hs] at hx
        cases hx
      | ok p =>
        obtain ⟨v, rest'⟩ := p
        rw [hd] at hs
        simp only at hs
        split at hs
        · rename_i hlt
          obtain ⟨r', hr, hv, hf, _⟩ := hs
          rw [hr] at hx
          cases hx
          rw [← hv] at hlt
          exact ⟨hf, hlt, rfl⟩
        · rw [hs] at hx
          cases hx

theorem dumpRow_moved (dbg : Bool) {s s' : SFrame o} {d : Int} (r : FrameRowEntry o)
    (hfp : s'.fixedFpOffset = s.fixedFpOffset) (hra : s'.fixedRaOffset = s.fixedRaOffset)
    (hr : r.startAddressOffset.toNat < r.fde.size.toNat)
    (hd : dbg = true → Within r.fde.startAddress.toInt r.fde.size.toNat ∧
      Within (r.fde.startAddress.toInt + d) r.fde.size.toNat) :
    dumpRow dbg s' (r.moved d) = movedListing d (dumpRow dbg s r) := by
  have hst : (r.moved d).startAddress dbg = (r.startAddress dbg).bind fun x =>
      .ok (x + BitVec.ofInt 32 d) := by
    unfold FrameRowEntry.startAddress
    show (if dbg = true then (if (r.fde.moved d).startAddress.toInt + r.startAddressOffset.toNat ≤ _ then
      Rust.ok ((r.fde.moved d).startAddress + r.startAddressOffset) else _) else
      .ok ((r.fde.moved d).startAddress + r.startAddressOffset)) = _
    rw [r.fde.moved_startAddress, show r.fde.startAddress + BitVec.ofInt 32 d + r.startAddressOffset =
      r.fde.startAddress + r.startAddressOffset + BitVec.ofInt 32 d by bv_omega]
    cases dbg with
    | false => rfl
    | true =>
      obtain ⟨h1, h2⟩ := hd rfl
      rw [toInt_moved h2.1, if_pos rfl, if_pos rfl,
        if_pos (show r.fde.startAddress.toInt + d + r.startAddressOffset.toNat ≤ 2147483647 by
          have := h2.2; omega),
        if_pos (show r.fde.startAddress.toInt + r.startAddressOffset.toNat ≤ 2147483647 by
          have := h1.2; omega)]
      rfl
  unfold dumpRow
  rw [hst]
  have e1 : (r.moved d).fpOffset s' = r.fpOffset s := by
    unfold FrameRowEntry.fpOffset
    rw [hfp, hra]
    rfl
  have e2 : (r.moved d).raOffset s' = r.raOffset s := by
    unfold FrameRowEntry.raOffset
    rw [hra]
    rfl
  rw [e1, e2]
  cases r.startAddress dbg <;> rfl

theorem dumpRowsFuel_moved (dbg : Bool) {s s' : SFrame o} {d : Int}
    (hfp : s'.fixedFpOffset = s.fixedFpOffset) (hra : s'.fixedRaOffset = s.fixedRaOffset) :
    ∀ (n : Nat) (it : FrameRowIter o),
    (dbg = true → Within it.fde.startAddress.toInt it.fde.size.toNat ∧
      Within (it.fde.startAddress.toInt + d) it.fde.size.toNat) →
    dumpRowsFuel dbg s' n (it.moved d) = movedListing d (dumpRowsFuel dbg s n it)
  | n, it, hd => by
    rw [dumpRowsFuel.eq_def dbg s' n, dumpRowsFuel.eq_def dbg s n]
    dsimp only
    rw [FrameRowIter.next_moved]
    cases hn : it.next with
    | panic p => rfl
    | diverge => rfl
    | ok x =>
      obtain ⟨x, it'⟩ := x
      rcases x with _ | e | r
      · rfl
      · rfl
      · obtain ⟨hf, hlt, hf'⟩ := next_row hn
        simp only [Rust.bind, Option.map, Except.map]
        rw [dumpRow_moved dbg r hfp hra (by rw [hf]; exact hlt) (by rw [hf]; exact hd),
          ← movedListing_andThen]
        cases n with
        | zero => rfl
        | succ n =>
          dsimp only
          rw [dumpRowsFuel_moved dbg hfp hra n it' (by rw [hf']; exact hd)]

theorem dumpFde_moved (dbg : Bool) {s s' : SFrame o} {d : Int}
    (hfp : s'.fixedFpOffset = s.fixedFpOffset) (hra : s'.fixedRaOffset = s.fixedRaOffset)
    (i : Nat) (e : FuncDescEntry o)
    (hd : dbg = true → Within e.fde.startAddress.toInt e.fde.size.toNat ∧
      Within (e.fde.startAddress.toInt + d) e.fde.size.toNat) :
    dumpFde dbg s' i (e.moved d) = movedListing d (dumpFde dbg s i e) := by
  have h1 : (e.moved d).startAddress = e.startAddress + BitVec.ofInt 32 d := e.fde.moved_startAddress d
  have h2 : (e.moved d).size = e.size := e.fde.moved_size d
  have h3 : (e.moved d).fdetype = e.fdetype := e.fde.moved_fdetype d
  have h4 : (e.moved d).fde.numFres = e.fde.numFres := e.fde.moved_numFres d
  have h5 : (e.moved d).iter = e.iter.moved d := rfl
  unfold dumpFde
  rw [h1, h2, h3, h4, h5, dumpRowsFuel_moved dbg hfp hra _ e.iter hd, ← movedListing_andThen,
    ← movedListing_andThen]
  rfl

theorem dumpFdesFuel_moved (dbg : Bool) {s s' : SFrame o} {d : Int} (fres : List U8)
    (hfp : s'.fixedFpOffset = s.fixedFpOffset) (hra : s'.fixedRaOffset = s.fixedRaOffset) :
    ∀ (n i : Nat) (l : List Fde),
    (∀ x ∈ l, dbg = true → Within x.startAddress.toInt x.size.toNat ∧
      Within (x.startAddress.toInt + d) x.size.toNat) →
    dumpFdesFuel dbg s' n i { fdes := l.map (Fde.moved d), fres := fres } =
      movedListing d (dumpFdesFuel dbg s n i { fdes := l, fres := fres })
  | n, i, [], _ => by
    rw [dumpFdesFuel.eq_def dbg s' n, dumpFdesFuel.eq_def dbg s n]
    rfl
  | n, i, x :: l, hd => by
    rw [dumpFdesFuel.eq_def dbg s' n, dumpFdesFuel.eq_def dbg s n]
    have hn : ({ fdes := (x :: l).map (Fde.moved d), fres := fres } : FuncDescIter o).next =
        ((({ fdes := x :: l, fres := fres } : FuncDescIter o).next.1).map (FuncDescEntry.moved d),
          { fdes := l.map (Fde.moved d), fres := fres }) := by
      simp only [FuncDescIter.next, List.map_cons, x.moved_startFreOff]
      rfl
    dsimp only
    rw [hn]
    have hn2 : (({ fdes := x :: l, fres := fres } : FuncDescIter o).next).2 = { fdes := l, fres := fres } := rfl
    have hfd : ∀ e, (({ fdes := x :: l, fres := fres } : FuncDescIter o).next).1 = some e → e.fde = x := by
      intro e he
      cases he
      rfl
    generalize ({ fdes := x :: l, fres := fres } : FuncDescIter o).next = y at hn2 hfd
    obtain ⟨y, it'⟩ := y
    cases hn2
    cases y with
    | none => rfl
    | some e =>
      simp only [Option.map]
      rw [dumpFde_moved dbg hfp hra i e (by rw [hfd e rfl]; exact hd x (by simp)), ← movedListing_andThen]
      cases n with
      | zero => rfl
      | succ n =>
        dsimp only
        rw [dumpFdesFuel_moved dbg fres hfp hra n (i + 1) l fun x hx => hd x (List.mem_cons_of_mem _ hx)]

/-- **C132**, any two sections of which one has the functions of the other, moved: the listings agree
up to the addresses, which are moved, and the runs end in the same way.  A build with overflow checks
computes the addresses of rows with them, so there no function may run over the greatest address. -/
theorem C132_section (dbg : Bool) {s s' : SFrame o} {d : Int}
    (hs : s'.fdes.toList = s.fdes.toList.map (Fde.moved d)) (hfr : s'.fres = s.fres)
    (hv : s'.version = s.version) (hfl : s'.flags = s.flags) (hnd : s'.numFdes = s.numFdes)
    (hnr : s'.numFres = s.numFres) (habi : s'.abi = s.abi)
    (hfp : s'.fixedFpOffset = s.fixedFpOffset) (hra : s'.fixedRaOffset = s.fixedRaOffset)
    (hd : dbg = true → ∀ x ∈ s.fdes.toList, Within x.startAddress.toInt x.size.toNat ∧
      Within (x.startAddress.toInt + d) x.size.toNat) :
    dump dbg s' = movedListing d (dump dbg s) := by
  unfold dump
  rw [hv, hfl, hnd, hnr, habi, hfp, hra, ← movedListing_andThen]
  unfold SFrame.iter FuncDescIter.sizeHint
  dsimp only
  rw [hs, hfr, List.length_map, dumpFdesFuel_moved dbg s.fres hfp hra _ _ _ fun x hx h => hd h x hx]
  rfl

theorem fdesOf_mem (o : Endian) : ∀ (l : List FuncDescBuilder) (off : Nat),
    ∀ x ∈ fdesOf o l off, ∃ f ∈ l, x.startAddress = f.startAddress ∧ x.size = f.size
  | [], _, _, hx => by simp [fdesOf] at hx
  | f :: l, off, x, hx => by
    simp only [fdesOf, List.mem_cons] at hx
    rcases hx with rfl | hx
    · exact ⟨f, by simp, rfl, rfl⟩
    · obtain ⟨g, hg, h⟩ := fdesOf_mem o l _ x hx
      exact ⟨g, List.mem_cons_of_mem _ hg, h⟩

/-- **C132**, the builder. -/
theorem C132_built (dbg dbg' : Bool) (o : Endian) {b b' : SFrameBuilder}
    (hb : SFrameBuilder.Reachable dbg' b) (hb' : SFrameBuilder.Reachable dbg' b')
    (ho : b'.options = b.options) {d : Int}
    (hf : functions b' = (functions b).map (movedFunction d))
    (hd : ∀ f ∈ functions b, InI32 (f.startAddress.toInt + d)) {out : List U8}
    (hout : b.build dbg o = .ok (.ok out)) :
    ∃ out' s s', b'.build dbg o = .ok (.ok out') ∧ SFrame.load o out = .ok (.ok s) ∧
      SFrame.load o out' = .ok (.ok s') ∧
      ∀ dbg'', (dbg'' = true → ∀ f ∈ functions b, Within f.startAddress.toInt f.size.toNat ∧
          Within (f.startAddress.toInt + d) f.size.toNat) →
        dump dbg'' s' = movedListing d (dump dbg'' s) := by
  obtain ⟨_, _, hok⟩ := C131_built .v152 dbg dbg' o hb hb' ho hf hd
  obtain ⟨out', hout', _, _⟩ := hok out hout
  obtain ⟨rfl, _, hfit⟩ := build_ok hb.inv hout
  obtain ⟨rfl, _, hfit'⟩ := build_ok hb'.inv hout'
  have hv : b'.fdes.values = b.fdes.values.map (movedFunction d) := hf
  have hlen : b'.fdes.length = b.fdes.length := by
    rw [← functions_length, ← functions_length, hf, List.length_map]
  refine ⟨_, _, _, hout', load_image o b hfit, load_image o b' hfit', fun dbg'' hw => ?_⟩
  apply C132_section
  · show (fdesOf o b'.fdes.values 0).map Fde.v2 = _
    rw [hv, fdesOf_moved]
    rfl
  · show chunks o b'.fdes.values = chunks o b.fdes.values
    rw [hv, chunks_moved]
  · rfl
  · show b'.options.flags = b.options.flags
    rw [ho]
  · show BitVec.ofNat 32 b'.fdes.length = BitVec.ofNat 32 b.fdes.length
    rw [hlen]
  · show BitVec.ofNat 32 (rowCount b'.fdes.values) = BitVec.ofNat 32 (rowCount b.fdes.values)
    rw [hv, rowCount_moved]
  · show b'.options.abiArch = b.options.abiArch
    rw [ho]
  · unfold SFrame.fixedFpOffset readBack
    rw [ho]
  · unfold SFrame.fixedRaOffset readBack
    rw [ho]
  · intro h x hx
    obtain ⟨y, hy, rfl⟩ := List.mem_map.1 hx
    obtain ⟨f, hf, h1, h2⟩ := fdesOf_mem o _ _ y hy
    show Within y.startAddress.toInt y.size.toNat ∧ Within (y.startAddress.toInt + d) y.size.toNat
    rw [h1, h2]
    exact hw h f hf

/-- **C132**, end to end: the listing of the section made from moved call frame information is that of
the section made from it before, with the addresses moved.  In a build with overflow checks no
function may run over the greatest address. -/
theorem C132_converted (dbg dbg' : Bool) (o : Endian) (eh : EhFrame) (opts : Options) (d : U64)
    {b : SFrameBuilder} {out : List U8}
    (h : dwarf2sframe dbg eh opts = .ok (.ok b)) (hout : b.build dbg' o = .ok (.ok out))
    (hd : ∀ fde, .ok fde ∈ inputs eh opts.bases → (fde.initial + d).toNat ≤ 2147483647) :
    ∃ b' out' s s', dwarf2sframe dbg (mapFdes (shiftFde d) eh) opts = .ok (.ok b') ∧
      b'.build dbg' o = .ok (.ok out') ∧ SFrame.load o out = .ok (.ok s) ∧
      SFrame.load o out' = .ok (.ok s') ∧
      ∀ dbg'', (dbg'' = true → ∀ fde, .ok fde ∈ inputs eh opts.bases →
          fde.initial.toNat + fde.len.toNat ≤ 2147483648 ∧
          (fde.initial + d).toNat + fde.len.toNat ≤ 2147483648) →
        dump dbg'' s' = movedListing d.toInt (dump dbg'' s) := by
  obtain ⟨b', hb', hr, hr', ho, hmv, hrange, hfrom⟩ := converted_moved dbg dbg' eh opts d h hd
  obtain ⟨out', s, s', h1, h2, h3, h4⟩ := C132_built dbg' dbg' o hr hr' ho hmv hrange hout
  refine ⟨b', out', s, s', hb', h1, h2, h3, fun dbg'' hw => h4 dbg'' fun h f hf => ?_⟩
  obtain ⟨fde, hi, e1, e2, e3⟩ := hfrom f hf
  have hw := hw h fde hi
  have hr := hd fde hi
  have hlt := f.startAddress.toInt_lt
  rw [e1] at hlt
  rw [e2, e1, e3]
  unfold Within InI32
  omega

/-- **C132**, the legacy converter. -/
theorem C132_legacy (dbg dbg' : Bool) (o : Endian) (eh : EhFrame) (bases : Bases) (d : U64)
    {b : SFrameBuilder} {out : List U8}
    (h : legacyConvert dbg eh bases = .ok (.ok b)) (hout : b.build dbg' o = .ok (.ok out))
    (hd : ∀ fde, .ok fde ∈ inputs eh bases → (fde.initial + d).toNat ≤ 2147483647) :
    ∃ b' out' s s', legacyConvert dbg (mapFdes (shiftFde d) eh) bases = .ok (.ok b') ∧
      b'.build dbg' o = .ok (.ok out') ∧ SFrame.load o out = .ok (.ok s) ∧
      SFrame.load o out' = .ok (.ok s') ∧
      ∀ dbg'', (dbg'' = true → ∀ fde, .ok fde ∈ inputs eh bases →
          fde.initial.toNat + fde.len.toNat ≤ 2147483648 ∧
          (fde.initial + d).toNat + fde.len.toNat ≤ 2147483648) →
        dump dbg'' s' = movedListing d.toInt (dump dbg'' s) := by
  obtain ⟨b', hb', hr, hr', ho, hmv, hrange, hfrom⟩ := legacy_moved dbg dbg' eh bases d h hd
  obtain ⟨out', s, s', h1, h2, h3, h4⟩ := C132_built dbg' dbg' o hr hr' ho hmv hrange hout
  refine ⟨b', out', s, s', hb', h1, h2, h3, fun dbg'' hw => h4 dbg'' fun h f hf => ?_⟩
  obtain ⟨fde, hi, e1, e2, e3⟩ := hfrom f hf
  have hw := hw h fde hi
  have hr := hd fde hi
  have hlt := f.startAddress.toInt_lt
  rw [e1] at hlt
  rw [e2, e1, e3]
  unfold Within InI32
  omega

/-! ### Non-vacuity -/

/-- The section of the sample function at an address. -/
def Samples.convAt (a : I32) : SFrameBuilder :=
  { options := Samples.opts, fdes := [(a, { Samples.convFn with startAddress := a })] }

/-- The sample function, moved down by 0x1000: its addresses change in the listing, and nothing else. -/
example : ∃ s s' : SFrame .little,
    SFrame.load .little (image .little (Samples.convAt 0x1000)) =
      .ok (.ok s) ∧
    SFrame.load .little (image .little (Samples.convAt 0)) = .ok (.ok s') ∧
    (dump true s).1.drop 1 = [.func 0 0x1000 0x20, .columns .pcInc,
      .row 0x1000 .sp (some 8) none (some (-8)) false, .row 0x1001 .sp (some 16) (some (-16)) (some (-8)) false,
      .row 0x1010 .fp none none (some (-8)) false, .blank] ∧
    (dump true s').1.drop 1 = [.func 0 0 0x20, .columns .pcInc,
      .row 0 .sp (some 8) none (some (-8)) false, .row 1 .sp (some 16) (some (-16)) (some (-8)) false,
      .row 0x10 .fp none none (some (-8)) false, .blank] ∧
    dump true s' = movedListing (-0x1000) (dump true s) :=
  ⟨readBack .little (Samples.convAt 0x1000),
    readBack .little (Samples.convAt 0),
    by decide +kernel, by decide +kernel, by decide +kernel, by decide +kernel, by decide +kernel⟩

/-- In a build with overflow checks no function may run over the greatest address: at 0x7FFFFFFE the
third row of the sample function cannot be listed there. -/
example : ∃ s : SFrame .little,
    SFrame.load .little (image .little (Samples.convAt 0x7FFFFFFE)) = .ok (.ok s) ∧
    (dump true s).2 = .panic .unwrap ∧ (dump false s).2 = .ok () ∧
    ¬ Within 0x7FFFFFFE 0x20 :=
  ⟨readBack .little (Samples.convAt 0x7FFFFFFE),
    by decide +kernel, by decide +kernel, by decide +kernel, by unfold Within InI32; decide +kernel⟩

end Verif
