import Verif.Props.MovingText
/-!
# C136: the conversion of moved code fails as before
-/

namespace Verif
namespace Spec

/-- An error with its address moved.  The offset of a row and the length of a function stay. -/
def errorMoved (d : U64) : ConvError → ConvError
  | .invalidStartAddress a => .invalidStartAddress (a + d)
  | .invalidRowOffset a offset => .invalidRowOffset (a + d) offset
  | .invalidFunctionLength a len => .invalidFunctionLength (a + d) len
  | e => e

/-- A function that can be moved by `d`: it starts where SFrame can express it, before and after, and no
address in it wraps around. -/
structure Movable (d : U64) (fde : DwFde) : Prop where
  start : fde.initial.toNat ≤ 2147483647
  moved : (fde.initial + d).toNat ≤ 2147483647
  len : fde.len.toNat < 2 ^ 63
  rows : ∀ xs r, fde.rows = .ok xs → .ok r ∈ xs → r.start.toNat < 2 ^ 63 ∧ (r.start + d).toNat < 2 ^ 63

/-- How a computation ends, without its result. -/
def ending {ε α : Type} (r : Rust (Except ε α)) : Rust (Except ε Unit) := r.bind fun x => .ok (x.map fun _ => ())

end Spec
open Spec

/-- The distance of a row from its function stays. -/
theorem distance_shift {a i d : U64} (hi : i.toNat ≤ 2147483647) (hd : (i + d).toNat ≤ 2147483647)
    (ha : a.toNat < 2 ^ 63) (had : (a + d).toNat < 2 ^ 63) :
    (a + d).toNat + i.toNat = (i + d).toNat + a.toNat := by
  rw [BitVec.toNat_add] at hd had ⊢
  rw [BitVec.toNat_add]
  have := d.isLt
  omega

theorem offset_shift (a i d : U64) : a + d - (i + d) = a - i := by
  apply BitVec.eq_of_toNat_eq
  simp only [BitVec.toNat_sub, BitVec.toNat_add]
  have := i.isLt
  have := a.isLt
  have := d.isLt
  omega

/-- The rows are those of a function that can be moved. -/
def RowsMovable (d : U64) (rs : List DwRow) : Prop :=
  ∀ r ∈ rs, r.start.toNat < 2 ^ 63 ∧ (r.start + d).toNat < 2 ^ 63

section
variable {so : SFrameOptions} {opts : Options} {fde : DwFde} {d : U64}

theorem clean_shift {arch : Architecture} (hm : Movable d fde) {rs : List DwRow} (hr : RowsMovable d rs) :
    Clean so arch (shiftFde d fde) (rs.map (shiftRow d)) ↔ Clean so arch fde rs := by
  have hp : ∀ r ∈ rs, (Placed so arch (shiftFde d fde) (shiftRow d r) ↔ Placed so arch fde r) := by
    intro r h
    have hx := distance_shift hm.start hm.moved (hr r h).1 (hr r h).2
    constructor
    · intro ⟨h1, h2, h3, h4⟩
      simp only [shiftFde, shiftRow] at h1 h2 h3
      exact ⟨by omega, by omega, by omega, h4⟩
    · intro ⟨h1, h2, h3, h4⟩
      refine ⟨?_, ?_, ?_, h4⟩ <;> simp only [shiftFde, shiftRow] <;> omega
  have hl : ∀ r ∈ live rs, r ∈ rs := fun r h => (List.mem_filter.1 h).1
  constructor
  · intro ⟨h1, h2⟩
    rw [live_shift] at h1 h2
    refine ⟨fun r h => (hp r (hl r h)).1 (h1 _ (List.mem_map_of_mem h)), ?_⟩
    rw [List.pairwise_map] at h2
    exact h2.imp fun {a b} hab he => hab (by simp [shiftRow, he])
  · intro ⟨h1, h2⟩
    refine ⟨?_, ?_⟩
    · rw [live_shift]
      intro r h
      obtain ⟨r', h', rfl⟩ := List.mem_map.1 h
      exact (hp r' (hl r' h')).2 (h1 r' h')
    · rw [live_shift, List.pairwise_map]
      exact h2.imp fun {a b} hab he => hab (by simpa [shiftRow] using he)

theorem near_shift (hm : Movable d fde) {r : DwRow}
    (hr : r.start.toNat < 2 ^ 63 ∧ (r.start + d).toNat < 2 ^ 63) :
    Near (shiftFde d fde) (shiftRow d r) ↔ Near fde r := by
  have hx := distance_shift hm.start hm.moved hr.1 hr.2
  simp only [Near, shiftFde, shiftRow]
  omega

theorem overflows_shift (hm : Movable d fde) :
    ¬ DumpOverflows opts fde ∧ ¬ DumpOverflows opts (shiftFde d fde) := by
  have h1 := hm.start
  have h2 := hm.moved
  have h3 := hm.len
  constructor
  · intro ⟨_, h⟩
    omega
  · intro ⟨_, h⟩
    simp only [shiftFde] at h
    omega

theorem rows_shift {rs : List DwRow} {x : Except GErr DwRow} {rest : List (Except GErr DwRow)}
    (h : fde.rows = .ok (rs.map .ok ++ x :: rest)) :
    (shiftFde d fde).rows = .ok ((rs.map (shiftRow d)).map .ok ++ x.map (shiftRow d) ::
      rest.map (·.map (shiftRow d))) := by
  simp only [shiftFde, h, Except.map, List.map_append, List.map_cons, List.map_map]
  rfl

theorem before_shift (hm : Movable d fde) {x : Except GErr DwRow}
    (hx : ∀ r, x = .ok r → r.start.toNat < 2 ^ 63 ∧ (r.start + d).toNat < 2 ^ 63) :
    Before (shiftFde d fde) (x.map (shiftRow d)) ↔ Before fde x := by
  cases x with
  | error e =>
    constructor
    · rintro ⟨r, h, _⟩
      cases h
    · rintro ⟨r, h, _⟩
      cases h
  | ok r =>
    have hd := distance_shift hm.start hm.moved (hx r rfl).1 (hx r rfl).2
    constructor
    · rintro ⟨r', h, hne, hlt⟩
      cases h
      refine ⟨r, rfl, fun he => hne ((shift_empty d r).2 he), ?_⟩
      simp only [shiftFde, shiftRow] at hlt
      omega
    · rintro ⟨r', h, hne, hlt⟩
      cases h
      refine ⟨shiftRow d r, rfl, fun he => hne ((shift_empty d r).1 he), ?_⟩
      simp only [shiftFde, shiftRow]
      omega

theorem itemError_shift (hm : Movable d fde) {x : Except GErr DwRow}
    (hx : ∀ r, x = .ok r → r.start.toNat < 2 ^ 63 ∧ (r.start + d).toNat < 2 ^ 63) :
    itemError (shiftFde d fde) (x.map (shiftRow d)) = (itemError fde x).map (errorMoved d) := by
  cases x with
  | error e => rfl
  | ok r =>
    show itemError (shiftFde d fde) (.ok (shiftRow d r)) = _
    simp only [itemError, ne_eq, shift_empty, near_shift hm (hx r rfl)]
    split
    · simp only [Option.map_some, errorMoved]
      rw [show (shiftRow d r).start - (shiftFde d fde).initial = r.start - fde.initial from offset_shift _ _ _]
      rfl
    · rfl

/-- The bounds for the rows of a function, split at one of them. -/
theorem Spec.Movable.split (hm : Movable d fde) {rs : List DwRow} {x : Except GErr DwRow}
    {rest : List (Except GErr DwRow)} (h : fde.rows = .ok (rs.map .ok ++ x :: rest)) :
    RowsMovable d rs ∧ ∀ r, x = .ok r → r.start.toNat < 2 ^ 63 ∧ (r.start + d).toNat < 2 ^ 63 :=
  ⟨fun r hr => hm.rows _ r h (List.mem_append_left _ (List.mem_map_of_mem hr)),
    fun r hr => hm.rows _ r h (by simp [hr])⟩

theorem fails_shift {dbg : Bool} (hm : Movable d fde) {e : ConvError} (h : FdeFails dbg so opts fde e) :
    FdeFails dbg so opts (shiftFde d fde) (errorMoved d e) := by
  have ho := (overflows_shift (opts := opts) hm).2
  cases h with
  | dump g h1 _ h3 => exact .dump g h1 (fun h => ho h.2) h3
  | start _ _ h =>
    have := hm.start
    omega
  | len _ h2 _ h4 => exact .len (fun h => ho h.2) h2 hm.moved h4
  | table g h1 _ h3 h4 => exact .table g h1 hm.moved h3 (by simp only [shiftFde, h4]; rfl)
  | row rs x rest _ h1 _ h3 h4 h5 h6 h7 =>
    obtain ⟨hr, hx⟩ := hm.split h4
    refine .row _ _ _ _ h1 hm.moved h3 (rows_shift h4) ((clean_shift hm hr).2 h5) ?_ ?_
    · rw [itemError_shift hm hx, h6]
      rfl
    · rw [before_shift hm hx]
      exact h7

theorem panics_shift {dbg : Bool} (hm : Movable d fde) (h : FdePanics dbg so opts fde) :
    FdePanics dbg so opts (shiftFde d fde) := by
  cases h with
  | dump _ h => exact absurd h (overflows_shift hm).1
  | row rs x rest h1 _ h3 h4 h5 h6 =>
    obtain ⟨hr, hx⟩ := hm.split h4
    refine .row _ _ _ h1 hm.moved h3 (rows_shift h4) ((clean_shift hm hr).2 h5) ?_
    rcases h6 with h6 | ⟨r, rfl, hne, hn, hc⟩
    · exact .inl ⟨h6.1, (before_shift hm hx).2 h6.2⟩
    · refine .inr ⟨shiftRow d r, rfl, fun he => hne ((shift_empty d r).1 he), (near_shift hm (hx r rfl)).2 hn, ?_⟩
      rw [show rs.map (shiftRow d) ++ [shiftRow d r] = (rs ++ [r]).map (shiftRow d) by simp,
        clean_shift hm]
      · exact hc
      · intro r' hr'
        rcases List.mem_append.1 hr' with h | h
        · exact hr r' h
        · cases List.mem_singleton.1 h
          exact hx r rfl

end

/-- The errors of entries have no address. -/
theorem entry_error {eh : EhFrame} {bases : Bases} {e : ConvError} (h : .error e ∈ inputs eh bases) (d : U64) :
    errorMoved d e = e := by
  rcases inputs_error h with ⟨g, rfl, _⟩ | ⟨g, _, _, rfl, _⟩ <;> rfl

theorem inputs_cut {eh : EhFrame} {bases : Bases} {d : U64} {fdes : List DwFde} {x : Except ConvError DwFde}
    {rest : List (Except ConvError DwFde)} (h : inputs eh bases = fdes.map .ok ++ x :: rest) :
    inputs (mapFdes (shiftFde d) eh) bases = (fdes.map (shiftFde d)).map .ok ++ x.map (shiftFde d) ::
      rest.map (·.map (shiftFde d)) := by
  rw [inputs_mapFdes, h]
  simp only [List.map_append, List.map_cons, List.map_map]
  rfl

/-- **C136.**  If all functions of an input can be moved, then the conversion of the moved code succeeds if
that of the code does; if that reports an error, it reports this error, with the address in it moved; and
if that panics, it panics.  As a conversion does one of the three, each holds the other way round as well. -/
theorem C136_fails (dbg : Bool) (eh : EhFrame) (opts : Options) (d : U64)
    (hm : ∀ fde, .ok fde ∈ inputs eh opts.bases → Movable d fde) :
    ((∃ b, dwarf2sframe dbg (mapFdes (shiftFde d) eh) opts = .ok (.ok b)) ↔
      ∃ b, dwarf2sframe dbg eh opts = .ok (.ok b)) ∧
    (∀ e', dwarf2sframe dbg (mapFdes (shiftFde d) eh) opts = .ok (.error e') ↔
      ∃ e, dwarf2sframe dbg eh opts = .ok (.error e) ∧ e' = errorMoved d e) ∧
    ((dwarf2sframe dbg (mapFdes (shiftFde d) eh) opts).Panics ↔ (dwarf2sframe dbg eh opts).Panics) := by
  have hmem : ∀ {fdes : List DwFde} {x rest}, inputs eh opts.bases = fdes.map .ok ++ x :: rest →
      (∀ f ∈ fdes, Movable d f) ∧ ∀ f, x = .ok f → Movable d f := by
    intro fdes x rest h
    refine ⟨fun f hf => hm f ?_, fun f hf => hm f ?_⟩
    · rw [h]
      exact List.mem_append_left _ (List.mem_map_of_mem hf)
    · rw [h, hf]
      simp
  have hconv : ∀ {fdes : List DwFde}, (∀ f ∈ fdes, Movable d f) →
      (∀ f ∈ fdes, Convertible (sectionOptions eh opts) opts f) →
      ∀ f ∈ fdes.map (shiftFde d), Convertible (sectionOptions (mapFdes (shiftFde d) eh) opts) opts f := by
    intro fdes h hc f hf
    obtain ⟨f', hf', rfl⟩ := List.mem_map.1 hf
    exact (convertible_shift (h f' hf').moved (hc f' hf')).1
  have h1 : ∀ b, dwarf2sframe dbg eh opts = .ok (.ok b) →
      ∃ b', dwarf2sframe dbg (mapFdes (shiftFde d) eh) opts = .ok (.ok b') := by
    intro b h
    obtain ⟨b', hb', _⟩ := C82_moved dbg eh opts b d h fun fde hf => (hm fde hf).moved
    exact ⟨b', hb'⟩
  have h2 : ∀ e, dwarf2sframe dbg eh opts = .ok (.error e) →
      dwarf2sframe dbg (mapFdes (shiftFde d) eh) opts = .ok (.error (errorMoved d e)) := by
    intro e h
    obtain ⟨fdes, x, rest, hin, hc, hb⟩ := dwarf2sframe_error_iff.1 h
    obtain ⟨hf, hx⟩ := hmem hin
    refine dwarf2sframe_error_iff.2 ⟨_, _, _, inputs_cut hin, hconv hf hc, ?_⟩
    rcases hb with rfl | ⟨f, rfl, hb⟩
    · refine .inl ?_
      rw [entry_error (eh := eh) (bases := opts.bases) (by rw [hin]; simp) d]
      rfl
    · exact .inr ⟨_, rfl, fails_shift (hx f rfl) hb⟩
  have h3 : (dwarf2sframe dbg eh opts).Panics → (dwarf2sframe dbg (mapFdes (shiftFde d) eh) opts).Panics := by
    intro h
    obtain ⟨fdes, f, rest, hin, hc, hb⟩ := dwarf2sframe_panics_iff.1 h
    obtain ⟨hf, hx⟩ := hmem hin
    exact dwarf2sframe_panics_iff.2 ⟨_, _, _, inputs_cut hin, hconv hf hc, panics_shift (hx f rfl) hb⟩
  have hall : (∃ b, dwarf2sframe dbg eh opts = .ok (.ok b)) ∨ (∃ e, dwarf2sframe dbg eh opts = .ok (.error e)) ∨
      (dwarf2sframe dbg eh opts).Panics := by
    rcases dwarf2sframe_cases dbg eh opts with ⟨_, _, _, h⟩ | ⟨_, _, _, _, _, ⟨e, _, h⟩ | ⟨_, _, _, p, h⟩⟩
    · exact .inl ⟨_, dwarf2sframe_eq_log _ h⟩
    · exact .inr (.inl ⟨e, dwarf2sframe_eq_log _ h⟩)
    · exact .inr (.inr ⟨p, dwarf2sframe_eq_log _ h⟩)
  refine ⟨⟨?_, fun ⟨b, h⟩ => h1 b h⟩, fun e' => ⟨?_, fun ⟨e, h, he⟩ => he ▸ h2 e h⟩, ⟨?_, h3⟩⟩
  · rintro ⟨b, hb⟩
    rcases hall with h | ⟨e, h⟩ | h
    · exact h
    · rw [h2 e h] at hb
      cases hb
    · obtain ⟨p, hp⟩ := h3 h
      rw [hp] at hb
      cases hb
  · intro he
    rcases hall with ⟨b, h⟩ | ⟨e, h⟩ | h
    · obtain ⟨b', hb'⟩ := h1 b h
      rw [hb'] at he
      cases he
    · rw [h2 e h] at he
      cases he
      exact ⟨e, h, rfl⟩
    · obtain ⟨p, hp⟩ := h3 h
      rw [hp] at he
      cases he
  · rintro ⟨p, hp⟩
    rcases hall with ⟨b, h⟩ | ⟨e, h⟩ | h
    · obtain ⟨b', hb'⟩ := h1 b h
      rw [hb'] at hp
      cases hp
    · rw [h2 e h] at hp
      cases hp
    · exact h

/-! ### The legacy converter -/

/-- The same function at another address. -/
def FuncDescBuilder.placedAt (sa : I32) (f : FuncDescBuilder) : FuncDescBuilder := { f with startAddress := sa }

theorem row_placedAt (sa : I32) (f : FuncDescBuilder) (r : FrameRowBuilder) :
    (f.placedAt sa).row r = (f.row r).map (FuncDescBuilder.placedAt sa) := by
  obtain ⟨options, startAddress, size, repSize, pauthKey, fres⟩ := f
  have hlast : ∀ (x : Except FrameRowError FrameRowBuilder),
      (x.bind fun r => match fres.get ordU32 r.startAddress with
        | some _ => .error .duplicateRow
        | none => .ok (⟨options, sa, size, repSize, pauthKey, fres.insert ordU32 r.startAddress r⟩ : FuncDescBuilder)) =
      (x.bind fun r => match fres.get ordU32 r.startAddress with
        | some _ => .error .duplicateRow
        | none => .ok (⟨options, startAddress, size, repSize, pauthKey,
            fres.insert ordU32 r.startAddress r⟩ : FuncDescBuilder)).map (FuncDescBuilder.placedAt sa) := by
    intro x
    cases x with
    | error e => rfl
    | ok r =>
      simp only [Except.bind]
      cases fres.get ordU32 r.startAddress <;> rfl
  have hif : ∀ (c : Prop) [Decidable c] (e : FrameRowError) (x y : Except FrameRowError FuncDescBuilder),
      x = y.map (FuncDescBuilder.placedAt sa) →
      (if c then .error e else x) = (if c then .error e else y).map (FuncDescBuilder.placedAt sa) := by
    intro c _ e x y h
    split
    · rfl
    · exact h
  exact hif _ _ _ _ (hif _ _ _ _ (hif _ _ _ _ (hlast _)))

theorem legacyRow_placedAt (sa : I32) (d : U64) (start : U32) (row : DwRow) (f : FuncDescBuilder) :
    legacyRow start (shiftRow d row) (f.placedAt sa) =
      (legacyRow start row f).bind fun r => .ok (r.map (FuncDescBuilder.placedAt sa)) := by
  unfold legacyRow
  rw [show legacyRules (shiftRow d row) = legacyRules row from rfl]
  cases legacyRules row with
  | panic p => rfl
  | diverge => rfl
  | ok x =>
    cases x with
    | none =>
      simp only [Rust.bind_ok, row_placedAt]
    | some x =>
      obtain ⟨base, offsets⟩ := x
      simp only [Rust.bind_ok, row_placedAt]
      cases f.row (FrameRowBuilder.new base start offsets) with
      | ok g => rfl
      | error e => rfl

theorem legacyRows_placedAt (dbg : Bool) {fde : DwFde} {d : U64} (hm : Movable d fde) (sa : I32)
    (xs : List (Except GErr DwRow))
    (hx : ∀ r, .ok r ∈ xs → r.start.toNat < 2 ^ 63 ∧ (r.start + d).toNat < 2 ^ 63) (f : FuncDescBuilder) :
    legacyRows dbg (shiftFde d fde) (xs.map (·.map (shiftRow d))) (f.placedAt sa) =
      (legacyRows dbg fde xs f).bind fun r => .ok (r.map (FuncDescBuilder.placedAt sa)) := by
  induction xs generalizing f with
  | nil => rfl
  | cons x xs ih =>
    have ih := ih fun r hr => hx r (List.mem_cons_of_mem _ hr)
    cases x with
    | error e => rfl
    | ok row =>
      have hd := distance_shift hm.start hm.moved (hx row (by simp)).1 (hx row (by simp)).2
      have hs : subU64 dbg (row.start + d) (fde.initial + d) = subU64 dbg row.start fde.initial := by
        unfold subU64
        rw [offset_shift]
        have : decide ((row.start + d).toNat < (fde.initial + d).toNat) = decide (row.start.toNat < fde.initial.toNat) :=
          decide_eq_decide.2 (by omega)
        rw [this]
      show (subU64 dbg (row.start + d) (fde.initial + d)).bind _ = _
      rw [hs]
      show _ = Rust.bind (Rust.bind (subU64 dbg row.start fde.initial) _) _
      cases subU64 dbg row.start fde.initial with
      | panic p => rfl
      | diverge => rfl
      | ok v =>
        simp only [Rust.bind_ok]
        cases u32TryFromU64 v with
        | none => rfl
        | some start =>
          simp only
          split
          · rw [show printRow (shiftRow d row) = printRow row from rfl]
            cases printRow row with
            | panic p => rfl
            | diverge => rfl
            | ok u =>
              simp only [Rust.bind_ok]
              rw [legacyRow_placedAt]
              cases legacyRow start row f with
              | panic p => rfl
              | diverge => rfl
              | ok r =>
                cases r with
                | error e => rfl
                | ok g => exact ih g
          · rfl

theorem merge_placedAt (sa : I32) (f : FuncDescBuilder) :
    (f.placedAt sa).mergeAdjacentFres = f.mergeAdjacentFres.bind fun g => .ok (g.placedAt sa) := by
  unfold FuncDescBuilder.mergeAdjacentFres
  show (match f.fres.first with
    | none => _
    | some (key, _) => (FuncDescBuilder.mergeFresLoop (f.fres.length + 1) f.fres key).bind _) = _
  cases f.fres.first with
  | none => rfl
  | some x =>
    obtain ⟨key, y⟩ := x
    simp only
    cases FuncDescBuilder.mergeFresLoop (f.fres.length + 1) f.fres key <;> rfl

/-- How the conversion of a function ends does not depend on where it is, nor on the other functions. -/
theorem legacyFde_placedAt (dbg : Bool) {fde : DwFde} {d : U64} (hm : Movable d fde) {b b' : SFrameBuilder}
    (ho : b'.options = b.options) :
    ending (legacyFde dbg b' (shiftFde d fde)) = ending (legacyFde dbg b fde) := by
  have h1 := hm.start
  have h2 := hm.moved
  have h3 := hm.len
  unfold legacyFde
  rw [if_neg (c := (shiftFde d fde).initial.toNat > i32Max) (by simp only [shiftFde, i32Max]; omega),
    if_neg (c := fde.initial.toNat > i32Max) (by simp only [i32Max]; omega),
    show (shiftFde d fde).len = fde.len from rfl]
  split
  · rfl
  · rename_i hl
    simp only
    cases hr : fde.rows with
    | error e =>
      rw [show (shiftFde d fde).rows = .error e by simp only [shiftFde, hr]; rfl]
    | ok xs =>
      rw [show (shiftFde d fde).rows = .ok (xs.map (·.map (shiftRow d))) by simp only [shiftFde, hr]; rfl]
      simp only
      have ha : ∀ i : U64, i.toNat ≤ 2147483647 → addU64 dbg i fde.len = .ok (i + fde.len) := by
        intro i hi
        unfold addU64
        have : ¬ 2 ^ 64 ≤ i.toNat + fde.len.toNat := by omega
        simp [this]
      rw [ha _ h1, show addU64 dbg (shiftFde d fde).initial fde.len = _ from ha _ h2]
      simp only [Rust.bind_ok]
      rw [show (shiftFde d fde).instructions = fde.instructions from rfl]
      cases dumpCfiInstructions fde.instructions with
      | error e => rfl
      | ok u =>
        simp only
        rw [ho, show FuncDescBuilder.new b.options ((shiftFde d fde).initial.setWidth 32) (fde.len.setWidth 32) =
          (FuncDescBuilder.new b.options (fde.initial.setWidth 32) (fde.len.setWidth 32)).placedAt
            ((fde.initial + d).setWidth 32) from rfl,
          legacyRows_placedAt dbg hm _ xs (fun r h => hm.rows xs r hr h)]
        cases legacyRows dbg fde xs (FuncDescBuilder.new b.options (fde.initial.setWidth 32) (fde.len.setWidth 32)) with
        | panic p => rfl
        | diverge => rfl
        | ok r =>
          cases r with
          | error e => rfl
          | ok f =>
            simp only [Rust.bind_ok, Except.map]
            rw [merge_placedAt]
            cases f.mergeAdjacentFres with
            | panic p => rfl
            | diverge => rfl
            | ok g =>
              simp only [Rust.bind_ok]
              unfold SFrameBuilder.fde
              rw [show (g.placedAt ((fde.initial + d).setWidth 32)).options = g.options from rfl, ho]
              split <;> rfl

theorem legacyEntries_ending (dbg : Bool) (eh : EhFrame) (bases : Bases) (d : U64) (es : List (Except GErr Entry))
    (cies : List (Nat × Except GErr Cie)) {b b' : SFrameBuilder}
    (hc : CacheOk (Options.new .amd64 bases) eh cies) (hb : b.options = legacyOptions)
    (hb' : b'.options = legacyOptions)
    (hm : ∀ fde, .ok fde ∈ inputs { eh with entries := fun _ => es } bases → Movable d fde) :
    ending (legacyEntries dbg (mapFdes (shiftFde d) eh) bases
      (es.map fun
        | .ok (.fde off parse) => .ok (.fde off fun cie => (parse cie).map (shiftFde d))
        | e => e) cies b') = ending (legacyEntries dbg eh bases es cies b) := by
  induction es generalizing cies b b' with
  | nil => rfl
  | cons x es ih =>
    cases x with
    | error e => rfl
    | ok x =>
      cases x with
      | cie => exact ih cies hc hb hb' hm
      | fde off parse =>
        obtain ⟨h1, h2⟩ := lookupCie_ok hc off
        have h1 : (lookupCie (Options.new .amd64 bases) eh cies off).1 = eh.cieFromOffset bases off := h1
        have hl : lookupCie (Options.new .amd64 bases) (mapFdes (shiftFde d) eh) cies off =
          lookupCie (Options.new .amd64 bases) eh cies off := rfl
        rw [List.map_cons]
        simp only
        rw [legacyEntries, legacyEntries, hl, h1]
        have hin : inputs { eh with entries := fun _ => .ok (.fde off parse) :: es } bases =
            (match parse (eh.cieFromOffset bases off) with
            | .error e => Except.error (.invalidDwarfFde e)
            | .ok fde => .ok fde) :: inputs { eh with entries := fun _ => es } bases := by
          unfold inputs
          rw [List.filterMap_cons]
          simp only
          cases parse (eh.cieFromOffset bases off) <;> rfl
        rw [hin] at hm
        cases hp : parse (eh.cieFromOffset bases off) with
        | error e => rfl
        | ok fde =>
          rw [hp] at hm
          simp only [Except.map]
          have hf := legacyFde_placedAt dbg (hm fde (by simp)) (hb'.trans hb.symm)
          have hopt : ∀ {c c' : SFrameBuilder} {f : DwFde}, c.options = legacyOptions →
              legacyFde dbg c f = .ok (.ok c') → c'.options = legacyOptions := by
            intro c c' f hco h
            obtain ⟨_, rfl⟩ := (legacyFde_iff bases hco).1 h
            exact hco
          cases h3 : legacyFde dbg b fde with
          | panic p =>
            rw [h3] at hf
            cases h4 : legacyFde dbg b' (shiftFde d fde) with
            | panic p' =>
              rw [h4] at hf
              cases hf
              rfl
            | diverge => rw [h4] at hf; cases hf
            | ok r => rw [h4] at hf; cases hf
          | diverge =>
            rw [h3] at hf
            cases h4 : legacyFde dbg b' (shiftFde d fde) with
            | panic p' => rw [h4] at hf; cases hf
            | diverge => rfl
            | ok r => rw [h4] at hf; cases hf
          | ok r =>
            rw [h3] at hf
            cases h4 : legacyFde dbg b' (shiftFde d fde) with
            | panic p' => rw [h4] at hf; cases hf
            | diverge => rw [h4] at hf; cases hf
            | ok r' =>
              rw [h4] at hf
              cases r with
              | error e =>
                cases r' with
                | error e' =>
                  cases hf
                  rfl
                | ok c => cases hf
              | ok c =>
                cases r' with
                | error e' => cases hf
                | ok c' =>
                  exact ih _ h2 (hopt hb h3) (hopt hb' h4) fun f hf => hm f (List.mem_cons_of_mem _ hf)

theorem legacyConvert_ending (dbg : Bool) (eh : EhFrame) (bases : Bases) :
    ending (legacyConvert dbg eh bases) =
      ending (legacyEntries dbg eh bases (eh.entries bases) [] (SFrameBuilder.new legacyOptions)) := by
  cases h : legacyEntries dbg eh bases (eh.entries bases) [] (SFrameBuilder.new legacyOptions) with
  | panic p => simp only [legacyConvert, h]; rfl
  | diverge => simp only [legacyConvert, h]; rfl
  | ok r =>
    cases r with
    | error e => simp only [legacyConvert, h]; rfl
    | ok b =>
      obtain ⟨fdes, h1, h2, _⟩ := (legacyEntries_iff (eh.entries bases) [] (SFrameBuilder.new legacyOptions) b
        (by simp [CacheOk]) rfl).1 h
      rw [legacyConvert_iff.2 ⟨fdes, (show inputs eh bases = _ from h1), h2, rfl⟩]
      rfl

/-- **C136**, the legacy converter: the conversion of moved code ends as that of the code does, with the same
error or the same panic if it fails.  None of its errors names an address that SFrame can express. -/
theorem C136_legacy (dbg : Bool) (eh : EhFrame) (bases : Bases) (d : U64)
    (hm : ∀ fde, .ok fde ∈ inputs eh bases → Movable d fde) :
    ending (legacyConvert dbg (mapFdes (shiftFde d) eh) bases) = ending (legacyConvert dbg eh bases) := by
  rw [legacyConvert_ending, legacyConvert_ending]
  exact legacyEntries_ending dbg eh bases d (eh.entries bases) [] (by simp [CacheOk]) rfl rfl hm

/-- A row of the sample function that is defined twice is refused there and elsewhere. -/
example (dbg : Bool) :
    ending (legacyConvert dbg (Samples.ehOf [Samples.dwFde]) Bases.default) = .ok (.error (.row .duplicateRow)) ∧
    ending (legacyConvert dbg (mapFdes (shiftFde (-0x1000)) (Samples.ehOf [Samples.dwFde])) Bases.default) =
      .ok (.error (.row .duplicateRow)) := by
  cases dbg <;> decide +kernel

/-- A function of 4 GB, and a row far from its function: the errors name the moved addresses. -/
example (dbg : Bool) :
    dwarf2sframe dbg (Samples.ehOf [{ Samples.dwFde with len := 0x100000000 }]) Samples.convOpts =
      .ok (.error (.invalidFunctionLength 0x1000 0x100000000)) ∧
    dwarf2sframe dbg (mapFdes (shiftFde (-0x1000)) (Samples.ehOf [{ Samples.dwFde with len := 0x100000000 }]))
      Samples.convOpts = .ok (.error (.invalidFunctionLength 0 0x100000000)) ∧
    dwarf2sframe dbg (Samples.ehOf [{ Samples.dwFde with
      rows := .ok [.ok { Samples.dwRow1 with start := 0x100001000 }] }]) Samples.convOpts =
      .ok (.error (.invalidRowOffset 0x100001000 0x100000000)) ∧
    dwarf2sframe dbg (mapFdes (shiftFde (-0x1000)) (Samples.ehOf [{ Samples.dwFde with
      rows := .ok [.ok { Samples.dwRow1 with start := 0x100001000 }] }])) Samples.convOpts =
      .ok (.error (.invalidRowOffset 0x100000000 0x100000000)) := by
  cases dbg <;> decide +kernel

/-- These functions can be moved. -/
example : Movable (-0x1000) { Samples.dwFde with len := 0x100000000 } ∧
    Movable (-0x1000) { Samples.dwFde with rows := .ok [.ok { Samples.dwRow1 with start := 0x100001000 }] } := by
  refine ⟨⟨by decide +kernel, by decide +kernel, by decide +kernel, ?_⟩,
    ⟨by decide +kernel, by decide +kernel, by decide +kernel, ?_⟩⟩
  · intro xs r hx hr
    have : ∀ xs, Samples.dwFde.rows = .ok xs → ∀ x ∈ xs, ∀ r, x = .ok r →
        r.start.toNat < 2 ^ 63 ∧ (r.start + (-0x1000)).toNat < 2 ^ 63 := by
      intro xs hx
      cases hx
      simp only [List.forall_mem_cons]
      repeat' constructor
      all_goals first | (rintro r ⟨⟩; decide +kernel) | (intro x hx; cases hx)
    exact this xs hx _ hr r rfl
  · intro xs r hx hr
    cases hx
    cases List.mem_singleton.1 hr
    decide +kernel

/-- An address that wraps around: in a build with overflow checks the row before the function makes the
conversion panic, and after the move it is far behind the function and is reported. -/
example : dwarf2sframe true (Samples.ehOf [{ Samples.dwFde with
      rows := .ok [.ok { Samples.dwRow1 with start := 0x800 }] }]) Samples.convOpts = .panic .overflow ∧
    dwarf2sframe true (mapFdes (shiftFde (-0x1000)) (Samples.ehOf [{ Samples.dwFde with
      rows := .ok [.ok { Samples.dwRow1 with start := 0x800 }] }])) Samples.convOpts =
      .ok (.error (.invalidRowOffset 0xfffffffffffff800 0xfffffffffffff800)) := by
  decide +kernel

end Verif
