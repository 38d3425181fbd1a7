import Verif.Model.Raw
/-!
# Info bytes: C23
-/

namespace Verif

/-- The values on which the getters match are covered by their non-panicking arms: the
`unreachable!()` arms (raw/v2.rs:119, 132, 146, 239, 267) are never reached. -/
theorem C23_no_unreachable (b : U8) :
    (b &&& 7#8).toNat ≤ 7 ∧ ((b >>> 3) &&& 1#8).toNat ≤ 1 ∧ ((b >>> 4) &&& 1#8).toNat ≤ 1 ∧
    (b &&& 1#8).toNat ≤ 1 ∧ ((b >>> 5) &&& 0b11#8).toNat ≤ 3 := by
  revert b; decide +kernel

/-- **C23** FDE info: each setter sets its field and changes no other field nor the unused bits. -/
theorem C23_fde_info (b : U8) (t : FreType) (d : RawFdeType) (k : PauthKey) :
    (FdeInfo.fretype (FdeInfo.setFretype b t) = t ∧
      FdeInfo.fdetype (FdeInfo.setFretype b t) = FdeInfo.fdetype b ∧
      FdeInfo.pauthKey (FdeInfo.setFretype b t) = FdeInfo.pauthKey b ∧
      FdeInfo.setFretype b t >>> 5 = b >>> 5) ∧
    (FdeInfo.fdetype (FdeInfo.setFdetype b d) = d ∧
      FdeInfo.fretype (FdeInfo.setFdetype b d) = FdeInfo.fretype b ∧
      FdeInfo.pauthKey (FdeInfo.setFdetype b d) = FdeInfo.pauthKey b ∧
      FdeInfo.setFdetype b d >>> 5 = b >>> 5) ∧
    (FdeInfo.pauthKey (FdeInfo.setPauthKey b k) = k ∧
      FdeInfo.fretype (FdeInfo.setPauthKey b k) = FdeInfo.fretype b ∧
      FdeInfo.fdetype (FdeInfo.setPauthKey b k) = FdeInfo.fdetype b ∧
      FdeInfo.setPauthKey b k >>> 5 = b >>> 5) := by
  refine ⟨?_, ?_, ?_⟩
  · cases t <;> revert b <;> decide +kernel
  · cases d <;> revert b <;> decide +kernel
  · cases k <;> revert b <;> decide +kernel

/-- **C23** FRE info: each setter sets its field and changes no other. -/
theorem C23_fre_info (b : U8) (r : BaseReg) (z : FreOffset) (m : Bool) :
    (FreInfo.baseReg (FreInfo.setBaseReg b r) = r ∧
      FreInfo.offsetCount (FreInfo.setBaseReg b r) = FreInfo.offsetCount b ∧
      FreInfo.offsetSize (FreInfo.setBaseReg b r) = FreInfo.offsetSize b ∧
      FreInfo.mangled (FreInfo.setBaseReg b r) = FreInfo.mangled b) ∧
    (FreInfo.offsetSize (FreInfo.setOffsetSize b z) = z ∧
      FreInfo.baseReg (FreInfo.setOffsetSize b z) = FreInfo.baseReg b ∧
      FreInfo.offsetCount (FreInfo.setOffsetSize b z) = FreInfo.offsetCount b ∧
      FreInfo.mangled (FreInfo.setOffsetSize b z) = FreInfo.mangled b) ∧
    (FreInfo.mangled (FreInfo.setMangled b m) = m ∧
      FreInfo.baseReg (FreInfo.setMangled b m) = FreInfo.baseReg b ∧
      FreInfo.offsetCount (FreInfo.setMangled b m) = FreInfo.offsetCount b ∧
      FreInfo.offsetSize (FreInfo.setMangled b m) = FreInfo.offsetSize b) := by
  refine ⟨?_, ?_, ?_⟩
  · cases r <;> revert b <;> decide +kernel
  · cases z <;> revert b <;> decide +kernel
  · cases m <;> revert b <;> decide +kernel

/-- The effect of storing a count, on all bytes and all counts up to 15. -/
theorem setOffsetCount_table : ∀ (c : Fin 16) (b : U8), ∀ b', FreInfo.setOffsetCount b (BitVec.ofNat 8 c.val) = .ok b' →
    FreInfo.offsetCount b' = BitVec.ofNat 8 c.val ∧ FreInfo.baseReg b' = FreInfo.baseReg b ∧
    FreInfo.offsetSize b' = FreInfo.offsetSize b ∧ FreInfo.mangled b' = FreInfo.mangled b := by
  have key : ∀ (c : Fin 16) (b : U8),
      let b' := (b &&& 0b11100001#8) ||| ((BitVec.ofNat 8 c.val <<< 1) &&& 0b00011110#8)
      FreInfo.offsetCount b' = BitVec.ofNat 8 c.val ∧ FreInfo.baseReg b' = FreInfo.baseReg b ∧
      FreInfo.offsetSize b' = FreInfo.offsetSize b ∧ FreInfo.mangled b' = FreInfo.mangled b := by
    decide +kernel
  intro c b b' h
  unfold FreInfo.setOffsetCount at h
  split at h
  · simp only [Rust.ok.injEq] at h; subst h; exact key c b
  · cases h

/-- **C23** FRE info, offset count: a count up to 15 is stored and nothing else changes; a larger
count panics. -/
theorem C23_offset_count (b n : U8) :
    (n.toNat ≤ 15 → ∃ b', FreInfo.setOffsetCount b n = .ok b' ∧
      FreInfo.offsetCount b' = n ∧ FreInfo.baseReg b' = FreInfo.baseReg b ∧
      FreInfo.offsetSize b' = FreInfo.offsetSize b ∧ FreInfo.mangled b' = FreInfo.mangled b) ∧
    (15 < n.toNat → FreInfo.setOffsetCount b n = .panic .assertion) := by
  constructor
  · intro h
    have hn : n = BitVec.ofNat 8 (⟨n.toNat, by omega⟩ : Fin 16).val := by simp
    have hok : ∃ b', FreInfo.setOffsetCount b n = .ok b' := by
      unfold FreInfo.setOffsetCount; rw [if_pos h]; exact ⟨_, rfl⟩
    obtain ⟨b', hb'⟩ := hok
    have := setOffsetCount_table ⟨n.toNat, by omega⟩ b b' (by rw [← hn]; exact hb')
    rw [← hn] at this
    exact ⟨b', hb', this⟩
  · intro h
    unfold FreInfo.setOffsetCount; rw [if_neg (by omega)]

example : FreInfo.setOffsetCount 0xFF 2 = .ok 0xE5 ∧ FreInfo.setOffsetCount 0 16 = .panic .assertion := by
  decide +kernel

end Verif
