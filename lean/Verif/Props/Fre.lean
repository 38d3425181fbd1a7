import Verif.Proofs.Fre
import Verif.Props.Samples
/-!
# Reading rows: C09, C10, C11, C12, C21, C22
-/

namespace Verif
open Spec

variable {o : Endian}

/-- The iterator after `k` calls of `next`. -/
def FrameRowIter.after (it : FrameRowIter o) : Nat → Rust (FrameRowIter o)
  | 0 => .ok it
  | k + 1 => it.next.bind fun p => p.2.after k

theorem FrameRowIter.after_spec (k : Nat) (it : FrameRowIter o)
    (rs : List (Except ReadError (FrameRowEntry o))) (h : it.collect = .ok rs) :
    ∃ it' it'', it.after k = .ok it' ∧ it'.next = .ok (rs[k]?, it'') := by
  rw [FrameRowIter.collect_eq] at h
  induction k generalizing it rs with
  | zero =>
    refine ⟨it, ?_⟩
    by_cases hd : it.fde.numFres.toNat ≤ it.index.toNat
    · rw [show it.fde.numFres.toNat - it.index.toNat = 0 by omega] at h
      simp only [readRows, Rust.ok.injEq] at h
      subst h
      exact ⟨it, rfl, FrameRowIter.next_done hd⟩
    · obtain ⟨n, hn⟩ : ∃ n, it.fde.numFres.toNat - it.index.toNat = n + 1 :=
        ⟨it.fde.numFres.toNat - it.index.toNat - 1, by omega⟩
      rw [hn] at h
      simp only [readRows, Rust.bind_eq_ok] at h
      obtain ⟨x, hx, h⟩ := h
      simp only [FrameRowIter.next, hd, if_false, hx, Rust.bind_ok]
      cases x with
      | error e =>
        simp only [Rust.ok.injEq] at h; subst h; exact ⟨_, rfl, rfl⟩
      | ok r =>
        simp only [Rust.bind_eq_ok] at h
        obtain ⟨rs', _, h⟩ := h
        simp only [Rust.ok.injEq] at h; subst h; exact ⟨_, rfl, rfl⟩
  | succ k ih =>
    by_cases hd : it.fde.numFres.toNat ≤ it.index.toNat
    · have h' := h
      rw [show it.fde.numFres.toNat - it.index.toNat = 0 by omega] at h'
      simp only [readRows, Rust.ok.injEq] at h'
      obtain ⟨it', it'', h1, h2⟩ := ih it rs h
      refine ⟨it', it'', ?_, ?_⟩
      · rw [FrameRowIter.after, FrameRowIter.next_done hd]; exact h1
      · rw [h2, ← h']; rfl
    · obtain ⟨n, hn⟩ : ∃ n, it.fde.numFres.toNat - it.index.toNat = n + 1 :=
        ⟨it.fde.numFres.toNat - it.index.toNat - 1, by omega⟩
      rw [hn] at h
      simp only [readRows, Rust.bind_eq_ok] at h
      obtain ⟨x, hx, h⟩ := h
      rw [FrameRowIter.after, show it.next = _ from by
        rw [FrameRowIter.next, if_neg hd, hx, Rust.bind_ok]]
      cases x with
      | error e =>
        simp only [Rust.ok.injEq] at h; subst h
        simp only [Rust.bind_ok]
        have := ih { it with index := u32Max } [] (by
          simp only
          rw [show it.fde.numFres.toNat - u32Max.toNat = 0 by
            have := numFres_le_max it.fde.numFres; omega]
          rfl)
        obtain ⟨it', it'', h1, h2⟩ := this
        exact ⟨it', it'', h1, by rw [h2]; simp⟩
      | ok r =>
        simp only [Rust.bind_eq_ok] at h
        obtain ⟨rs', h', h⟩ := h
        simp only [Rust.ok.injEq] at h; subst h
        simp only [Rust.bind_ok]
        have hi := index_succ (i := it.index) (n := it.fde.numFres) (by omega)
        have := ih { it with index := it.index + 1, fres := r.2 } rs' (by
          simp only [hi]
          rw [show it.fde.numFres.toNat - (it.index.toNat + 1) = n by omega]
          exact h')
        obtain ⟨it', it'', h1, h2⟩ := this
        exact ⟨it', it'', h1, by rw [h2]; simp⟩

/-- **C09** Reading the rows of any function terminates; there are at most as many items as the
FRE count; an error is the last item; the `k`-th call of `next` returns item `k` and from the end on
it keeps returning `None`.  (The remaining outcome is the panic of C11.) -/
theorem C09_fre_iteration (e : FuncDescEntry o) :
    e.iter.collect ≠ .diverge ∧
    ∀ rs, e.iter.collect = .ok rs →
      rs.length ≤ e.fde.numFres.toNat ∧
      (∀ i err, rs[i]? = some (.error err) → i + 1 = rs.length) ∧
      ∀ k, ∃ it it', e.iter.after k = .ok it ∧ it.next = .ok (rs[k]?, it') := by
  refine ⟨by rw [FuncDescEntry.collect_eq]; exact readRows_ne_diverge _ _ _, fun rs h => ?_⟩
  have h' := h
  rw [FuncDescEntry.collect_eq] at h'
  obtain ⟨h1, _, h3⟩ := readRows_length h'
  exact ⟨h1, h3, fun k => FrameRowIter.after_spec k _ _ h⟩

/-- A function with two rows and one whose FREs end early: three announced, one read, one error. -/
example : (∃ a b, Samples.e0.iter.collect = .ok [.ok a, .ok b]) ∧
    (∃ a, ({ fde := .v2 { startAddress := 0, size := 16, startFreOff := 0, numFres := 3, info := 0,
                          repSize := 0, padding2 := 0 },
             fres := [0, 3, 8, 1, 3] } : FuncDescEntry .little).iter.collect
      = .ok [.ok a, .error .unexpectedEof]) := by
  refine ⟨⟨_, _, Samples.e0_rows⟩,
    ⟨{ fde := .v2 { startAddress := 0, size := 16, startFreOff := 0, numFres := 3, info := 0,
                    repSize := 0, padding2 := 0 },
       startAddressOffset := 0, info := 3, offsets := [8, 0, 0] }, by decide +kernel⟩⟩

/-- **C10** At every point of the iteration the size hint encloses the number of items to come. -/
theorem C10_size_hint (it : FrameRowIter o) (rs : List (Except ReadError (FrameRowEntry o)))
    (h : it.collect = .ok rs) :
    it.sizeHint.1 ≤ rs.length ∧ ∃ u, it.sizeHint.2 = some u ∧ rs.length ≤ u := by
  rw [FrameRowIter.collect_eq] at h
  obtain ⟨h1, h2, _⟩ := readRows_length h
  unfold FrameRowIter.sizeHint
  split
  · exact ⟨by simp, 0, rfl, by omega⟩
  · rename_i hlt
    have hsub : (it.fde.numFres - it.index).toNat = it.fde.numFres.toNat - it.index.toNat := by
      have := it.fde.numFres.isLt
      rw [BitVec.toNat_sub]; omega
    have : rs ≠ [] := h2 (by omega)
    have : 0 < rs.length := List.length_pos_iff.2 this
    simp only [hsub]
    exact ⟨by omega, _, rfl, h1⟩

example : ∃ rs, Samples.e0.iter.collect = .ok rs ∧ rs.length = 2 ∧
    Samples.e0.iter.sizeHint = (1, some 2) :=
  ⟨_, Samples.e0_rows, rfl, by decide +kernel⟩

/-- **C12** Reading one row: decodes exactly what the format specification says, with its errors,
and leaves what follows; a decodable row that starts at or after the end of the function is the only
other case, and there the code panics (C11). -/
theorem C12_fre_decodes (o : Endian) (fde : Fde) (fres : List U8) :
    (∀ e, decodeFre o fde.info.toNat fres = .error e →
      FrameRowEntry.load o fde fres = .ok (.error e)) ∧
    (∀ v rest, decodeFre o fde.info.toNat fres = .ok (v, rest) → v.start < fde.size.toNat →
      ∃ r, FrameRowEntry.load o fde fres = .ok (.ok (r, rest)) ∧ r.view = v ∧ r.fde = fde) ∧
    (∀ v rest, decodeFre o fde.info.toNat fres = .ok (v, rest) → ¬ v.start < fde.size.toNat →
      FrameRowEntry.load o fde fres = .panic .assertion) := by
  have h := freLoad_spec o fde fres
  refine ⟨fun e he => ?_, fun v rest hv hlt => ?_, fun v rest hv hlt => ?_⟩
  · rw [he] at h; exact h
  · rw [hv] at h; simp only [hlt, if_true] at h
    obtain ⟨r, h1, h2, h3, _⟩ := h
    exact ⟨r, h1, h2, h3⟩
  · rw [hv] at h; simp only [hlt, if_false] at h; exact h

/-- A two-byte start, mangled, two two-byte offsets, big-endian; and each error. -/
example :
    decodeFre .big 1 [0x12, 0x34, 0xA5, 0xFF, 0xF0, 0x00, 0x10, 0x99]
      = .ok ({ start := 0x1234, base := .sp, mangled := true, offsets := [-16, 16] }, [0x99]) ∧
    decodeFre .big 3 [0, 0, 0] = .error (.unsupportedFreType .reserved3) ∧
    decodeFre .big 0 [0, 0x08, 1, 2, 3, 4] = .error (.invalidFreOffsetCount 4) ∧
    decodeFre .big 0 [0, 0x62, 1, 2, 3, 4] = .error (.unsupportedFreOffset .reserved3) ∧
    decodeFre .big 0 [0, 0x24, 1, 2, 3] = .error .unexpectedEof := by decide +kernel

/-- **C12**, for the iterator: if no row starts outside the function, iteration yields the rows that
the format specification decodes. -/
theorem C12_rows_decode (e : FuncDescEntry o)
    (h : ∀ v, .ok v ∈ decodeFres o e.fde.info.toNat e.fde.numFres.toNat e.fres →
      v.start < e.size.toNat) :
    ∃ rs, e.iter.collect = .ok rs ∧
      rs.map (·.map FrameRowEntry.view) = decodeFres o e.fde.info.toNat e.fde.numFres.toNat e.fres ∧
      ∀ r, .ok r ∈ rs → r.fde = e.fde := by
  rw [FuncDescEntry.collect_eq]
  generalize e.fde.numFres.toNat = n at *
  obtain ⟨fde, fres⟩ := e
  simp only [FuncDescEntry.size] at h ⊢
  induction n generalizing fres with
  | zero => exact ⟨[], rfl, rfl, by simp⟩
  | succ n ih =>
    have hs := freLoad_spec o fde fres
    unfold decodeFres at h ⊢
    unfold readRows
    cases hd : decodeFre o fde.info.toNat fres with
    | error err =>
      rw [hd] at hs
      simp only at hs
      rw [hs]
      exact ⟨_, rfl, rfl, by simp⟩
    | ok p =>
      obtain ⟨v, rest⟩ := p
      rw [hd] at hs h
      simp only [List.mem_cons] at h
      simp only [h v (.inl rfl), if_true] at hs
      obtain ⟨r, h1, h2, h3, _⟩ := hs
      obtain ⟨rs, h4, h5, h6⟩ := ih rest (fun v hv => h v (.inr hv))
      rw [h1]
      simp only [Rust.bind_ok, h4]
      refine ⟨_, rfl, by rw [List.map_cons, h5, ← h2]; rfl, ?_⟩
      intro r' hr'
      rcases List.mem_cons.1 hr' with h | h
      · cases h; exact h3
      · exact h6 r' h

example : decodeFres .little 0 2 Samples.e0.fres =
    [.ok { start := 0, base := .sp, mangled := false, offsets := [8] },
     .ok { start := 4, base := .sp, mangled := false, offsets := [16, -16] }] ∧
    Samples.e0.size = 0x20 := by decide +kernel

/-- **C11** is false: a section that loads can hold a row that makes the iterator panic (the
`assert!` of read.rs:600-605).  Here the second row of function 0 starts at 0x20, the size of the
function. -/
theorem C11_fre_panics :
    ∃ (s : List U8) (f : SFrame .little) (e : FuncDescEntry .little),
      SFrame.load .little s = .ok (.ok f) ∧ f.iter.next.1 = some e ∧
      e.iter.collect = .panic .assertion := by
  refine ⟨Samples.v2.set 71 0x20, _, { Samples.e0 with fres := Samples.e0.fres.set 3 0x20 },
    rfl, ?_, ?_⟩ <;> decide +kernel

/-- **C11**, what holds: reading the rows of a function panics exactly when one of its decodable
rows (before the first undecodable one) starts at or after the end of the function, and otherwise
returns.  Missing: no panic on arbitrary input, which is false. -/
theorem C11_fre_panics_iff_partial (e : FuncDescEntry o) :
    (e.iter.collect.Panics ↔
      ∃ v, .ok v ∈ decodeFres o e.fde.info.toNat e.fde.numFres.toNat e.fres ∧
        ¬ v.start < e.size.toNat) ∧
    (¬ e.iter.collect.Panics → e.iter.collect.Returns) := by
  have hnd : e.iter.collect ≠ .diverge := (C09_fre_iteration e).1
  have hret : ¬ e.iter.collect.Panics → e.iter.collect.Returns := by
    intro h
    cases hc : e.iter.collect with
    | ok a => exact ⟨a, rfl⟩
    | panic p => exact absurd ⟨p, hc⟩ h
    | diverge => exact absurd hc hnd
  refine ⟨⟨fun h => ?_, fun h => ?_⟩, hret⟩
  · apply Classical.byContradiction
    intro hn
    obtain ⟨rs, hrs, _⟩ := C12_rows_decode e (fun v hv => by
      apply Classical.byContradiction
      intro hv'
      exact hn ⟨v, hv, hv'⟩)
    obtain ⟨p, hp⟩ := h
    rw [hrs] at hp; cases hp
  · rw [FuncDescEntry.collect_eq]
    obtain ⟨v, hv, hlt⟩ := h
    generalize e.fde.numFres.toNat = n at *
    obtain ⟨fde, fres⟩ := e
    simp only [FuncDescEntry.size] at hlt hv ⊢
    clear hret hnd
    induction n generalizing fres with
    | zero => simp [decodeFres] at hv
    | succ n ih =>
      have hs := freLoad_spec o fde fres
      unfold decodeFres at hv
      unfold readRows
      cases hd : decodeFre o fde.info.toNat fres with
      | error err => rw [hd] at hv; simp at hv
      | ok p =>
        obtain ⟨v', rest⟩ := p
        rw [hd] at hs hv
        simp only at hs
        by_cases hv' : v'.start < fde.size.toNat
        · rw [if_pos hv'] at hs
          obtain ⟨r, h1, h2, h3, _⟩ := hs
          rw [h1]
          simp only [List.mem_cons] at hv
          rcases hv with hv | hv
          · cases hv; exact absurd hv' hlt
          · obtain ⟨p, hp⟩ := ih rest hv
            exact ⟨p, by simp [hp]⟩
        · rw [if_neg hv'] at hs
          rw [hs]
          exact ⟨.assertion, rfl⟩

/-- **C21** The accessors of a row of a section, in terms of the stored offsets and the fixed
offsets of the header (0 = not fixed). -/
theorem C21_offset_accessors (r : FrameRowEntry o) (s : SFrame o) :
    r.cfaOffset.map BitVec.toInt = orMissing r.view.offsets[0]? ∧
    (r.raOffset s).map BitVec.toInt = orMissing
      (if s.fixedRa.toInt ≠ 0 then some s.fixedRa.toInt else r.view.offsets[1]?) ∧
    (r.fpOffset s).map BitVec.toInt = orMissing
      (if s.fixedFp.toInt ≠ 0 then some s.fixedFp.toInt
       else if s.fixedRa.toInt ≠ 0 then r.view.offsets[1]? else r.view.offsets[2]?) := by
  have hz : ∀ x : BitVec 8, x.toInt ≠ 0 ↔ x ≠ 0#8 := by
    intro x; rw [← BitVec.toInt_zero (w := 8), ne_eq, BitVec.toInt_inj]
  have hse : ∀ x : BitVec 8, (x.signExtend 32).toInt = x.toInt := fun x =>
    BitVec.toInt_signExtend_of_le (by omega)
  have hidx : ∀ i : Nat, r.view.offsets[i]? = r.storedOffsets[i]?.map BitVec.toInt := by
    intro i; simp [FrameRowEntry.view]
  simp only [hz, hidx]
  refine ⟨?_, ?_, ?_⟩
  · unfold FrameRowEntry.cfaOffset; cases r.storedOffsets[0]? <;> rfl
  · unfold FrameRowEntry.raOffset SFrame.fixedRaOffset
    by_cases h : s.fixedRa = 0#8
    · simp only [h]
      cases r.storedOffsets[1]? <;> rfl
    · simp [h, Except.map, orMissing, hse]
  · unfold FrameRowEntry.fpOffset SFrame.fixedFpOffset SFrame.fixedRaOffset
    by_cases h : s.fixedFp = 0#8
    · by_cases h' : s.fixedRa = 0#8
      · simp [h, h']
        cases r.storedOffsets[2]? <;> rfl
      · simp only [h]
        simp [h']
        cases r.storedOffsets[1]? <;> rfl
    · simp [h, Except.map, orMissing, hse]

/-- The row at 4 of the sample: RA is fixed at -8, so the second stored offset is FP; and the first
row has no FP. -/
example : ∃ a b, Samples.e0.iter.collect = .ok [.ok a, .ok b] ∧
    b.cfaOffset = .ok 16 ∧ b.raOffset Samples.v2F = .ok (-8) ∧ b.fpOffset Samples.v2F = .ok (-16) ∧
    a.fpOffset Samples.v2F = .error .missingFreOffset := by
  refine ⟨_, _, Samples.e0_rows, ?_, ?_, ?_, ?_⟩ <;> decide +kernel

/-- **C21** The accessors of the rows that iteration yields, in terms of the offsets that the format
specification decodes at that place. -/
theorem C21_decoded (e : FuncDescEntry o) (s : SFrame o)
    (h : ∀ v, .ok v ∈ decodeFres o e.fde.info.toNat e.fde.numFres.toNat e.fres →
      v.start < e.size.toNat) :
    ∃ rs, e.iter.collect = .ok rs ∧ ∀ (i : Nat) (r : FrameRowEntry o), rs[i]? = some (Except.ok r) →
      ∃ v : FreView, (decodeFres o e.fde.info.toNat e.fde.numFres.toNat e.fres)[i]? = some (Except.ok v) ∧
        r.cfaOffset.map BitVec.toInt = orMissing v.offsets[0]? ∧
        (r.raOffset s).map BitVec.toInt = orMissing
          (if s.fixedRa.toInt ≠ 0 then some s.fixedRa.toInt else v.offsets[1]?) ∧
        (r.fpOffset s).map BitVec.toInt = orMissing
          (if s.fixedFp.toInt ≠ 0 then some s.fixedFp.toInt
           else if s.fixedRa.toInt ≠ 0 then v.offsets[1]? else v.offsets[2]?) := by
  obtain ⟨rs, h1, h2, -⟩ := C12_rows_decode e h
  refine ⟨rs, h1, fun i r hr => ⟨r.view, ?_, C21_offset_accessors r s⟩⟩
  rw [← h2, List.getElem?_map, hr]
  rfl

example : ∀ v, .ok v ∈ decodeFres .little Samples.e0.fde.info.toNat Samples.e0.fde.numFres.toNat Samples.e0.fres →
    v.start < Samples.e0.size.toNat := by
  intro v hv
  have h : ∀ x ∈ decodeFres .little Samples.e0.fde.info.toNat Samples.e0.fde.numFres.toNat Samples.e0.fres,
      x.toOption.all (fun v => v.start < Samples.e0.size.toNat) = true := by decide +kernel
  simpa [Except.toOption] using h _ hv

/-- **C22** The absolute start address of a row. -/
theorem C22_start_address (dbg : Bool) (r : FrameRowEntry o) :
    let exact : Int := r.fde.startAddress.toInt + r.view.start
    (exact ≤ 2147483647 → ∃ a, r.startAddress dbg = .ok a ∧ a.toInt = exact) ∧
    (2147483647 < exact → dbg = true → (r.startAddress dbg).Panics) ∧
    (2147483647 < exact → dbg = false →
      ∃ a, r.startAddress dbg = .ok a ∧ a.toInt = exact - 2 ^ 32) := by
  have h1 := r.fde.startAddress.isLt
  have h2 := r.startAddressOffset.isLt
  have h3 := BitVec.toInt_eq_toNat_cond r.fde.startAddress
  have h5 := BitVec.toInt_eq_toNat_cond (r.fde.startAddress + r.startAddressOffset)
  have h6 := BitVec.toNat_add r.fde.startAddress r.startAddressOffset
  simp only [FrameRowEntry.view]
  refine ⟨fun h => ⟨r.fde.startAddress + r.startAddressOffset, ?_, ?_⟩, fun h hd => ?_,
    fun h hd => ⟨r.fde.startAddress + r.startAddressOffset, ?_, ?_⟩⟩
  · unfold FrameRowEntry.startAddress; cases dbg <;> simp [h]
  · split at h3 <;> split at h5 <;> omega
  · subst hd
    exact ⟨.unwrap, by unfold FrameRowEntry.startAddress; simp; omega⟩
  · subst hd; rfl
  · split at h3 <;> split at h5 <;> omega

example : ∃ r : FrameRowEntry .little, r.startAddress true = .ok (-1) ∧
    r.fde.startAddress = 0x80000000 ∧ r.view.start = 0x7FFFFFFF := by
  refine ⟨{
    fde := .v2 {
      startAddress := 0x80000000, size := 0xFFFFFFFF, startFreOff := 0,
      numFres := 1, info := 2, repSize := 0, padding2 := 0 },
    startAddressOffset := 0x7FFFFFFF, info := 0, offsets := [0, 0, 0] }, ?_, ?_, ?_⟩ <;> decide +kernel

end Verif
