import Verif.Proofs.Profile
import Verif.Props.Merge
/-!
# Debug and release builds agree: C42
-/

namespace Verif

/-- **C42, reader.**  If a debug build does not panic in a lookup, a release build returns the same.
(Loading and iterating do not depend on the profile: the model of these functions has no profile
parameter, they contain no arithmetic that can overflow and no debug assertion.) -/
theorem C42_reader {o : Endian} (alg : SearchAlg) (s : SFrame o) (e : FuncDescEntry o)
    (r : FrameRowEntry o) (a : I32) :
    (∀ x, s.fdeForAddress alg true a = .ok x → s.fdeForAddress alg false a = .ok x) ∧
    (∀ x, e.contains true a = .ok x → e.contains false a = .ok x) ∧
    (∀ x, e.getFreForAddress true a = .ok x → e.getFreForAddress false a = .ok x) ∧
    (∀ x, r.startAddress true = .ok x → r.startAddress false = .ok x) :=
  ⟨fdeForAddress_refines alg s a, contains_refines e a, getFreForAddress_refines e a,
    startAddress_refines r⟩

/-- **C42, writer.** -/
theorem C42_writer (o : Endian) (b : SFrameBuilder) :
    (∀ x, b.build true o = .ok x → b.build false o = .ok x) ∧
    (∀ x, b.mergeAdjacentFdes true = .ok x → b.mergeAdjacentFdes false = .ok x) :=
  ⟨build_refines o b, mergeAdjacentFdes_refines b⟩

/-- A debug build that returns, and one that panics where the release build returns. -/
example : Samples.sec.build true .little = .ok (.ok Samples.secOut) ∧
    Samples.ends.mergeAdjacentFdes true = .panic .overflow ∧
    (Samples.ends.mergeAdjacentFdes false).Returns :=
  ⟨Samples.sec_build true, by decide +kernel, _, rfl⟩

end Verif
