import Verif.Model.Debug
import Verif.Props.Fre
import Verif.Props.Load
/-!
# Printing a section with `{:?}`: C67
-/

namespace Verif
open Spec

variable {o : Endian}

/-- What the printed row says. -/
def Spec.shownRow (d : RowDebug) : FreView :=
  ⟨d.startAddress.toNat, d.baseReg, d.mangled, d.offsets.map BitVec.toInt⟩

/-- Some row of the entry starts at or after the end of its function, and no row before it is
undecodable. -/
def Spec.RowOutside (e : FuncDescEntry o) : Prop :=
  ∃ v, .ok v ∈ decodeFres o e.fde.info.toNat e.fde.numFres.toNat e.fres ∧ ¬ v.start < e.size.toNat

/-- What is printed of function entry `e` agrees with what the accessors and the iterator give. -/
structure Spec.ShownFde (e : FuncDescEntry o) (d : FdeDebug) : Prop where
  start : d.startAddress = e.startAddress
  size : d.size = e.size
  mask : d.fdetype = .pcMask ↔ e.fdetype ≠ .pcInc
  pauth : d.pauthKey = e.pauthKey
  rep : d.repSize = e.repBlockSize
  numFres : d.numFres = e.fde.numFres
  startFreOff : d.startFreOff = e.fde.startFreOff
  rows : d.fres.map (·.map shownRow) = decodeFres o e.fde.info.toNat e.fde.numFres.toNat e.fres

theorem loaded_offsets {fde : Fde} {fres rest : List U8} {r : FrameRowEntry o}
    (h : FrameRowEntry.load o fde fres = .ok (.ok (r, rest))) : r.offsets.length = 3 := by
  have hl : ∀ s n t l rest, FrameRowEntry.loadOffsets o s n t = .ok (l, rest) → l.length = 3 := by
    intro s n t l rest h
    unfold FrameRowEntry.loadOffsets at h
    split at h
    all_goals first
      | cases h; done
      | (split at h
         · cases h
         · injection h with h
           injection h with h _
           rw [← h]
           simp [FrameRowEntry.pad3])
  unfold FrameRowEntry.load at h
  split at h <;> try (injection h with h; cases h; done)
  split at h
  · injection h with h; cases h
  · split at h
    · injection h with h; cases h
    · split at h
      · injection h with h; cases h
      · rename_i heq
        split at h
        · injection h with h
          injection h with h
          injection h with h _
          rw [← h]
          exact hl _ _ _ _ _ heq
        · cases h

theorem row_debug {r : FrameRowEntry o} (h : r.offsets.length = 3) :
    ∃ d, r.debug = .ok d ∧ shownRow d = r.view := by
  unfold FrameRowEntry.debug getTo
  rw [if_pos (by omega)]
  refine ⟨_, rfl, ?_⟩
  unfold shownRow FrameRowEntry.view FrameRowEntry.storedOffsets getTo
  simp only
  congr 2
  by_cases hc : (FreInfo.offsetCount r.info).toNat ≤ 3
  · rw [if_pos (by omega), Nat.min_eq_left hc]
  · rw [if_neg (by omega), Nat.min_eq_right (by omega), ← h, List.take_length]

theorem next_offsets {it it' : FrameRowIter o} {r : FrameRowEntry o}
    (h : it.next = .ok (some (.ok r), it')) : r.offsets.length = 3 := by
  unfold FrameRowIter.next at h
  split at h
  · injection h with h; injection h with h; cases h
  · cases hl : FrameRowEntry.load o it.fde it.fres with
    | panic p => rw [hl] at h; cases h
    | diverge => rw [hl] at h; cases h
    | ok x =>
      rw [hl, Rust.bind_ok] at h
      cases x with
      | error e => injection h with h; injection h with h; injection h with h; cases h
      | ok x =>
        obtain ⟨r', rest⟩ := x
        injection h with h; injection h with h; injection h with h; injection h with h
        rw [← h]
        exact loaded_offsets hl

/-- Printing the rows panics if reading them does, and otherwise shows them. -/
theorem debugRows_eq (fuel : Nat) (it : FrameRowIter o) :
    (∀ rs, FrameRowIter.collectFuel fuel it = .ok rs →
      ∃ ds, debugRowsFuel fuel it = .ok ds ∧
        ds.map (·.map shownRow) = rs.map (·.map FrameRowEntry.view)) ∧
    (∀ p, FrameRowIter.collectFuel fuel it = .panic p → debugRowsFuel fuel it = .panic p) := by
  induction fuel generalizing it with
  | zero =>
    unfold FrameRowIter.collectFuel debugRowsFuel
    cases hn : it.next with
    | panic p => exact ⟨fun _ h => (by cases h), fun q h => (by cases h; rfl)⟩
    | diverge => exact ⟨fun _ h => (by cases h), fun _ h => by cases h⟩
    | ok x =>
      obtain ⟨x, it'⟩ := x
      cases x with
      | none => exact ⟨fun rs h => (by cases h; exact ⟨[], rfl, rfl⟩), fun q h => (by cases h)⟩
      | some x => exact ⟨fun _ h => (by cases h), fun _ h => by cases h⟩
  | succ fuel ih =>
    unfold FrameRowIter.collectFuel debugRowsFuel
    cases hn : it.next with
    | panic p => exact ⟨fun _ h => (by cases h), fun q h => (by cases h; rfl)⟩
    | diverge => exact ⟨fun _ h => (by cases h), fun _ h => by cases h⟩
    | ok x =>
      obtain ⟨x, it'⟩ := x
      cases x with
      | none => exact ⟨fun rs h => (by cases h; exact ⟨[], rfl, rfl⟩), fun q h => (by cases h)⟩
      | some x =>
        obtain ⟨d, hd, hv⟩ : ∃ d, debugItem x = Rust.ok d ∧
            d.map shownRow = x.map FrameRowEntry.view := by
          cases x with
          | error e => exact ⟨.error e, rfl, rfl⟩
          | ok r =>
            obtain ⟨d, h1, h2⟩ := row_debug (next_offsets hn)
            exact ⟨.ok d, by simp only [debugItem, h1, Rust.bind_ok], by simp only [Except.map, h2]⟩
        simp only [Rust.bind_ok]
        refine ⟨fun rs h => ?_, fun p h => ?_⟩
        · cases hc : FrameRowIter.collectFuel fuel it' with
          | panic p => rw [hc] at h; cases h
          | diverge => rw [hc] at h; cases h
          | ok rs' =>
            rw [hc] at h
            cases h
            obtain ⟨ds, h1, h2⟩ := (ih it').1 _ hc
            refine ⟨d :: ds, ?_, by simp only [List.map_cons, hv, h2]⟩
            rw [hd, Rust.bind_ok, h1, Rust.bind_ok]
        · cases hc : FrameRowIter.collectFuel fuel it' with
          | ok p => rw [hc] at h; cases h
          | diverge => rw [hc] at h; cases h
          | panic q =>
            rw [hc] at h
            cases h
            rw [hd, Rust.bind_ok, (ih it').2 _ hc]; rfl

theorem fde_debug (e : FuncDescEntry o) :
    (RowOutside e → e.debug.Panics) ∧ (¬ RowOutside e → ∃ d, e.debug = .ok d ∧ ShownFde e d) := by
  obtain ⟨h1, h2⟩ := debugRows_eq e.fde.numFres.toNat e.iter
  unfold FuncDescEntry.debug
  constructor
  · intro h
    obtain ⟨p, hp⟩ := (C11_fre_panics_iff_partial e).1.2 h
    exact ⟨p, by rw [h2 p hp]; rfl⟩
  · intro h
    obtain ⟨rs, h3, h4, _⟩ := C12_rows_decode e fun v hv =>
      Classical.byContradiction fun hn => h ⟨v, hv, hn⟩
    obtain ⟨ds, h5, h6⟩ := h1 rs h3
    refine ⟨_, by rw [h5]; rfl, ⟨rfl, rfl, ?_, rfl, rfl, rfl, rfl, by rw [← h4]; exact h6⟩⟩
    simp only [FuncDescEntry.fdetype, Fde.fdetype]
    cases e.fde with
    | v1 f => simp only [Fde.info]; cases FdeInfo.fdetype f.info <;> simp
    | v2 f => simp only [Fde.info]; cases FdeInfo.fdetype f.info <;> simp

theorem fdes_debug (l : List Fde) (fres : List U8) (fuel : Nat) (hf : l.length ≤ fuel) :
    ((∃ e ∈ l.map (entryOf o fres), RowOutside e) → (debugFdesFuel fuel (FuncDescIter.mk (o := o) l fres)).Panics) ∧
    ((∀ e ∈ l.map (entryOf o fres), ¬ RowOutside e) →
      ∃ ds, debugFdesFuel fuel (FuncDescIter.mk (o := o) l fres) = .ok ds ∧ ds.length = l.length ∧
        ∀ (i : Nat) e d, (l.map (entryOf o fres))[i]? = some e → ds[i]? = some d → ShownFde e d) := by
  induction l generalizing fuel with
  | nil =>
    refine ⟨fun ⟨e, he, _⟩ => (by cases he), fun _ => ⟨[], ?_, rfl, fun i e d h => (by cases h)⟩⟩
    unfold debugFdesFuel
    rw [FuncDescIter.next_nil]
  | cons x l ih =>
    cases fuel with
    | zero => simp at hf
    | succ fuel =>
      obtain ⟨i1, i2⟩ := ih fuel (by simpa using hf)
      unfold debugFdesFuel
      rw [FuncDescIter.next_cons]
      simp only
      obtain ⟨h1, h2⟩ := fde_debug (entryOf o fres x)
      constructor
      · rintro ⟨e, he, ho⟩
        rw [List.map_cons, List.mem_cons] at he
        by_cases hx : RowOutside (entryOf o fres x)
        · obtain ⟨p, hp⟩ := h1 hx
          exact ⟨p, by rw [hp]; rfl⟩
        · obtain ⟨d, hd, _⟩ := h2 hx
          rcases he with rfl | he
          · exact absurd ho hx
          · obtain ⟨p, hp⟩ := i1 ⟨e, he, ho⟩
            exact ⟨p, by rw [hd, Rust.bind_ok, hp]; rfl⟩
      · intro h
        obtain ⟨d, hd, hs⟩ := h2 (h _ (by rw [List.map_cons]; exact List.mem_cons_self ..))
        obtain ⟨ds, hds, hlen, hall⟩ := i2 fun e he => h e (by rw [List.map_cons]; exact List.mem_cons_of_mem _ he)
        refine ⟨d :: ds, by rw [hd, Rust.bind_ok, hds]; rfl, by simp [hlen], ?_⟩
        intro i e d' he hd'
        cases i with
        | zero =>
          simp only [List.map_cons, List.getElem?_cons_zero, Option.some.injEq] at he hd'
          subst he hd'
          exact hs
        | succ i =>
          simp only [List.map_cons, List.getElem?_cons_succ] at he hd'
          exact hall i e d' he hd'

/-- **C67.**  Printing a section with `{:?}` panics exactly if some row of some function starts at or
after the end of the function (and no row of the function before it is undecodable); otherwise it shows
the header, and of every function the values that the accessors give, and its rows up to the first
undecodable one, which is shown as the error. -/
theorem C67_debug (s : SFrame o) :
    ∃ es, s.iter.collect = .ok es ∧
      (s.debug.Panics ↔ ∃ e ∈ es, RowOutside e) ∧
      ((∀ e ∈ es, ¬ RowOutside e) → ∃ d, s.debug = .ok d ∧
        d.preamble = s.preamble ∧ d.abiArch = s.abi ∧ d.fixedFpOffset = s.fixedFpOffset ∧
        d.fixedRaOffset = s.fixedRaOffset ∧ d.numFdes = s.numFdes ∧ d.numFres = s.numFres ∧
        d.fdes.length = es.length ∧
        ∀ (i : Nat) e x, es[i]? = some e → d.fdes[i]? = some x → ShownFde e x) := by
  obtain ⟨h1, h2⟩ := fdes_debug (o := o) s.iter.fdes s.iter.fres s.iter.sizeHint.1 (Nat.le_refl _)
  refine ⟨_, FuncDescIter.collect_eq _, ⟨fun h => ?_, fun h => ?_⟩, fun h => ?_⟩
  · apply Classical.byContradiction
    intro hn
    obtain ⟨ds, hds, _⟩ := h2 fun e he ho => hn ⟨e, he, ho⟩
    obtain ⟨p, hp⟩ := h
    unfold SFrame.debug at hp
    rw [show s.iter = FuncDescIter.mk s.iter.fdes s.iter.fres from rfl, hds] at hp
    cases hp
  · obtain ⟨p, hp⟩ := h1 h
    exact ⟨p, by unfold SFrame.debug; rw [show s.iter = FuncDescIter.mk s.iter.fdes s.iter.fres from rfl, hp]; rfl⟩
  · obtain ⟨ds, hds, hlen, hall⟩ := h2 h
    refine ⟨⟨s.preamble, s.abiArch, s.fixedFpOffset, s.fixedRaOffset, s.numFdes, s.numFres, ds⟩, ?_,
      rfl, rfl, rfl, rfl, rfl, rfl, by simp [hlen], hall⟩
    unfold SFrame.debug
    rw [show s.iter = FuncDescIter.mk s.iter.fdes s.iter.fres from rfl, hds]; rfl

/-- The sample section is printed; with a row moved to the end of its function, it still loads and
printing it panics. -/
example : (Samples.v2F.debug.bind fun d => .ok (d.fdes.map fun f => f.fres.map (·.map shownRow)))
      = .ok [[.ok ⟨0, .sp, false, [8]⟩, .ok ⟨4, .sp, false, [16, -16]⟩], [.ok ⟨0, .sp, false, [24]⟩]] ∧
    ((SFrame.load .little (Samples.v2.set 71 0x20)).bind fun
      | .ok s => s.debug.bind fun _ => .ok true
      | .error _ => .ok false) = .panic .assertion := by
  decide +kernel

end Verif
