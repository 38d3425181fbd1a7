import Verif.Props.Write
/-!
# Truncated sections: C114
-/

namespace Verif
open Spec

namespace Spec

/-- Where the last part of a section ends. -/
def neededLength (o : Endian) (s : List U8) : Nat :=
  max (tablePos o s + numFdes o s * fdeSize o s) (fresPos o s + freLen o s)

end Spec

theorem uintAt_take (o : Endian) (s : List U8) {p n k : Nat} (h : p + n ≤ k) :
    uintAt o (s.take k) p n = uintAt o s p n := by
  simp only [uintAt]
  rw [List.drop_take, List.take_take, Nat.min_eq_left (by omega)]

/-- **C114.**  Of a section that can be loaded, a prefix can be loaded exactly if it has all parts, and is then the same
section; else the error is `UnexpectedEof`. -/
theorem C114_truncated {o : Endian} {s : List U8} {f : SFrame o} (h : SFrame.load o s = .ok (.ok f)) (n : Nat) :
    SFrame.load o (s.take n) =
      if neededLength o s ≤ n then .ok (.ok f) else .ok (.error .unexpectedEof) := by
  have hl := (C02_load_succeeds_iff o s).1 ⟨f, h⟩
  have e1 := hl.header
  have e2 := hl.table
  have e3 := hl.fres
  have hneed : neededLength o s ≤ s.length := by unfold neededLength; omega
  have h28 : 28 ≤ neededLength o s := by
    have : tablePos o s = 28 + auxLen o s + fdeOff o s := rfl
    unfold neededLength
    omega
  have hmag : 4 ≤ n → magic o (s.take n) = magic o s := fun h => uintAt_take o s (by omega)
  have hver : 4 ≤ n → version o (s.take n) = version o s := fun h => uintAt_take o s (by omega)
  have hall : 28 ≤ n → bodyPos o (s.take n) = bodyPos o s ∧ tablePos o (s.take n) = tablePos o s ∧
      fresPos o (s.take n) = fresPos o s ∧ Spec.numFdes o (s.take n) = Spec.numFdes o s ∧
      Spec.freLen o (s.take n) = Spec.freLen o s ∧ fdeSize o (s.take n) = fdeSize o s := by
    intro h
    have h1 : auxLen o (s.take n) = auxLen o s := uintAt_take o s (by omega)
    have h2 : fdeOff o (s.take n) = fdeOff o s := uintAt_take o s (by omega)
    have h3 : freOff o (s.take n) = freOff o s := uintAt_take o s (by omega)
    have h4 : Spec.numFdes o (s.take n) = Spec.numFdes o s := uintAt_take o s (by omega)
    have h5 : Spec.freLen o (s.take n) = Spec.freLen o s := uintAt_take o s (by omega)
    simp only [bodyPos, tablePos, fresPos, fdeSize, h1, h2, h3, h4, h5, hver (by omega : 4 ≤ n), and_self]
  by_cases hn : neededLength o s ≤ n
  · rw [if_pos hn]
    obtain ⟨a1, a2, a3, a4, a5, a6⟩ := hall (by omega)
    have hb : bodyPos o s ≤ tablePos o s := Nat.le_add_right _ _
    have hn4 : 4 ≤ n := by omega
    unfold neededLength at hn
    have hlen := List.length_take (i := n) (l := s)
    have : Loads o (s.take n) := ⟨by rw [hmag hn4]; exact hl.magic, by rw [hver hn4]; exact hl.version,
      by rw [hlen]; unfold neededLength at h28; omega, by rw [a1]; omega, by rw [a2, a4, a6]; omega, by rw [a3, a5]; omega⟩
    obtain ⟨g, hg⟩ := (C02_load_succeeds_iff o _).2 this
    have := C03_trailing_bytes (t := s.drop n) hg
    rw [List.take_append_drop, h] at this
    cases this
    exact hg
  · rw [if_neg hn, C02_load_error]
    have hlen : (s.take n).length = n := by rw [List.length_take]; omega
    unfold loadError
    rw [hlen]
    by_cases h4 : n < 4
    · rw [if_pos h4]
    rw [if_neg h4, hmag (by omega), hver (by omega), if_neg (by rw [hl.magic]; omega),
      if_neg (by have := hl.version; omega)]
    by_cases h28' : n < 28
    · rw [if_pos h28']
    rw [if_neg h28']
    obtain ⟨a1, a2, a3, a4, a5, a6⟩ := hall (by omega)
    rw [a1, a2, a3, a4, a5, a6]
    unfold neededLength at hn
    split
    · rfl
    split
    · rfl
    rw [if_pos (by omega)]

/-- **C114.**  A section that was built has no superfluous byte: whatever is cut off its end, it is refused. -/
theorem C114_built (dbg d : Bool) (o : Endian) (b : SFrameBuilder) (hb : SFrameBuilder.Reachable d b) (out : List U8)
    (h : b.build dbg o = .ok (.ok out)) (n : Nat) :
    SFrame.load o (out.take n) = .ok (.error .unexpectedEof) ↔ n < out.length := by
  obtain ⟨⟨_, h2, _, _, _, _, h7, h8, _, h10, h11, h12⟩, hlen, _⟩ := C28_layout dbg d o b hb out h
  obtain ⟨rfl, _, hfits⟩ := build_ok hb.inv h
  rw [C114_truncated (load_image o b hfits)]
  have : neededLength o (image o b) = (image o b).length := by
    simp only [neededLength, tablePos, fresPos, bodyPos, fdeSize, h2, h7, h8, h10, h11, h12, hlen]
    rw [if_neg (by decide)]
    omega
  rw [this]
  by_cases hn : (image o b).length ≤ n
  · rw [if_pos hn]; simp; omega
  · rw [if_neg hn]; simp; omega

/-- A section with both tables, and one in which the rows come first. -/
example : neededLength .little Samples.v2 = 78 ∧ SFrame.load .little Samples.v2 = .ok (.ok Samples.v2F) ∧
    SFrame.load .little (Samples.v2.take 77) = .ok (.error .unexpectedEof) ∧
    neededLength .big Samples.v1 = 52 ∧ SFrame.load .big (Samples.v1.take 52) = .ok (.ok Samples.v1F) := by
  decide +kernel

end Verif
