import Verif.Model.Read
import Verif.Model.Write
/-!
# Runs with and without overflow checks
-/

namespace Verif

/-- If the first run returns, the second one returns the same. -/
def Refines {α : Type u} (x y : Rust α) : Prop := ∀ a, x = .ok a → y = .ok a

namespace Refines

theorem refl {α : Type u} (x : Rust α) : Refines x x := fun _ h => h

theorem panic {α : Type u} (p : Panic) (y : Rust α) : Refines (.panic p) y := fun _ h => by cases h

theorem bind {α : Type u} {β : Type v} {x y : Rust α} {f g : α → Rust β} (h : Refines x y)
    (hf : ∀ a, Refines (f a) (g a)) : Refines (x.bind f) (y.bind g) := by
  intro b hb
  obtain ⟨a, ha, hfa⟩ := Rust.bind_eq_ok.1 hb
  rw [h a ha]
  exact hf a b hfa

theorem ite {α : Type u} {p : Prop} [Decidable p] {x y x' y' : Rust α} (h : Refines x y)
    (h' : Refines x' y') : Refines (if p then x else x') (if p then y else y') := by
  split
  · exact h
  · exact h'

end Refines

theorem subI32_refines (a b : I32) : Refines (subI32 true a b) (subI32 false a b) := by
  intro c hc
  unfold subI32 at hc ⊢
  split at hc
  · cases hc
  · simpa using hc

theorem search152_refines {α} {f g : α → Rust Ordering} (hf : ∀ a, Refines (f a) (g a)) (l : List α)
    (fuel left right size : Nat) :
    Refines (search152 f l fuel left right size) (search152 g l fuel left right size) := by
  induction fuel generalizing left right size with
  | zero => unfold search152; exact .refl _
  | succ fuel ih =>
    unfold search152
    refine .ite ?_ (.refl _)
    simp only
    cases l[left + size / 2]? with
    | none => exact .refl _
    | some x => exact .bind (hf x) fun cmp => .ite (.refl _) (ih _ _ _)

theorem search182_refines {α} {f g : α → Rust Ordering} (hf : ∀ a, Refines (f a) (g a)) (l : List α)
    (fuel base size : Nat) :
    Refines (search182 f l fuel base size) (search182 g l fuel base size) := by
  induction fuel generalizing base size with
  | zero =>
    unfold search182
    refine .ite (.refl _) ?_
    cases l[base]? with
    | none => exact .refl _
    | some x => exact .bind (hf x) fun cmp => .refl _
  | succ fuel ih =>
    unfold search182
    refine .ite ?_ ?_
    · simp only
      cases l[base + size / 2]? with
      | none => exact .refl _
      | some x => exact .bind (hf x) fun cmp => ih _ _
    · cases l[base]? with
      | none => exact .refl _
      | some x => exact .bind (hf x) fun cmp => .refl _

theorem binarySearchBy_refines {α} (alg : SearchAlg) {f g : α → Rust Ordering}
    (hf : ∀ a, Refines (f a) (g a)) (l : List α) :
    Refines (binarySearchBy alg f l) (binarySearchBy alg g l) := by
  cases alg with
  | v152 => exact search152_refines hf l _ _ _ _
  | v182 => exact .ite (.refl _) (search182_refines hf l _ _ _)

variable {o : Endian}

theorem findFuel_refines {p q : FuncDescEntry o → Rust Bool} (h : ∀ e, Refines (p e) (q e))
    (fuel : Nat) (it : FuncDescIter o) :
    Refines (FuncDescIter.findFuel p fuel it) (FuncDescIter.findFuel q fuel it) := by
  induction fuel generalizing it with
  | zero =>
    unfold FuncDescIter.findFuel
    rcases it.next with ⟨_ | e, it'⟩
    · exact .refl _
    · exact .bind (h e) fun v => .refl _
  | succ fuel ih =>
    unfold FuncDescIter.findFuel
    rcases it.next with ⟨_ | e, it'⟩
    · exact .refl _
    · exact .bind (h e) fun v => .ite (.refl _) (ih it')

theorem startAddress_refines (r : FrameRowEntry o) :
    Refines (r.startAddress true) (r.startAddress false) := by
  intro a ha
  unfold FrameRowEntry.startAddress at ha ⊢
  rw [if_pos rfl] at ha
  split at ha
  · simpa using ha
  · cases ha

theorem contains_refines (e : FuncDescEntry o) (a : I32) :
    Refines (e.contains true a) (e.contains false a) :=
  .ite (.refl _) (.bind (subI32_refines _ _) fun _ => .refl _)

theorem getFreForAddress_refines (e : FuncDescEntry o) (a : I32) :
    Refines (e.getFreForAddress true a) (e.getFreForAddress false a) :=
  .ite (.refl _) (.bind (subI32_refines _ _) fun _ => .refl _)

theorem searchCmp_refines (a start : I32) (size : U32) :
    Refines (SFrame.searchCmp true a start size) (SFrame.searchCmp false a start size) :=
  .ite (.refl _) (.bind (subI32_refines _ _) fun _ => .refl _)

theorem fdeForAddress_refines (alg : SearchAlg) (s : SFrame o) (a : I32) :
    Refines (s.fdeForAddress alg true a) (s.fdeForAddress alg false a) := by
  unfold SFrame.fdeForAddress
  refine .ite (findFuel_refines (fun e => contains_refines e a) _ _) (.bind ?_ fun _ => .refl _)
  cases s.fdes with
  | v1 l => exact binarySearchBy_refines alg (fun e => searchCmp_refines _ _ _) l
  | v2 l => exact binarySearchBy_refines alg (fun e => searchCmp_refines _ _ _) l

theorem overlaps_refines (f g : FuncDescBuilder) :
    Refines (SFrameBuilder.overlaps true f g) (SFrameBuilder.overlaps false f g) := by
  intro v hv
  unfold SFrameBuilder.overlaps at hv ⊢
  split at hv
  · cases hv
  · rw [if_neg (by simp)]
    exact Refines.bind (subI32_refines _ _) (fun _ => .refl _) v hv

theorem anyPairs_refines {α} {f g : α → α → Rust Bool} (h : ∀ a b, Refines (f a b) (g a b)) :
    ∀ l, Refines (SFrameBuilder.anyPairs f l) (SFrameBuilder.anyPairs g l)
  | [] => .refl _
  | [_] => .refl _
  | a :: b :: rest => .bind (h a b) fun _ => .ite (.refl _) (anyPairs_refines h (b :: rest))

theorem build_refines (o : Endian) (b : SFrameBuilder) :
    Refines (b.build true o) (b.build false o) :=
  .bind (anyPairs_refines overlaps_refines _) fun _ => .refl _

theorem mergeFdesLoop_refines (fuel : Nat) (fdes : BMap I32 FuncDescBuilder) (a : I32) :
    Refines (SFrameBuilder.mergeFdesLoop true fuel fdes a)
      (SFrameBuilder.mergeFdesLoop false fuel fdes a) := by
  induction fuel generalizing fdes a with
  | zero => exact .refl _
  | succ fuel ih =>
    unfold SFrameBuilder.mergeFdesLoop
    rcases BMap.rangeFrom ordI32 a fdes with _ | ⟨⟨k, cur⟩, _ | ⟨⟨k2, next⟩, rest⟩⟩
    · exact .refl _
    · exact .refl _
    · simp only
      intro out hout
      split at hout
      · cases hout
      · rw [if_neg (by simp)]
        exact Refines.ite (ih _ _) (.bind (subI32_refines _ _) fun _ => .ite (ih _ _) (.ite (ih _ _)
          (.ite (ih _ _) (.ite (ih _ _) (ih _ _))))) out hout

theorem mergeAdjacentFdes_refines (b : SFrameBuilder) :
    Refines (b.mergeAdjacentFdes true) (b.mergeAdjacentFdes false) := by
  unfold SFrameBuilder.mergeAdjacentFdes
  cases b.fdes.first with
  | none => exact .refl _
  | some e => exact .bind (mergeFdesLoop_refines _ _ _) fun _ => .refl _

end Verif
