import Verif.Model.Bits

namespace Verif.Bits

theorem getMask_bit (W start stop : Nat) (h1 : start ≤ stop) (h2 : stop < W) :
    ∃ m, getMask W start stop = some m ∧ ∀ i, m.getLsbD i = decide (start ≤ i ∧ i ≤ stop) := by
  refine ⟨_, by rw [getMask, if_neg (by omega), if_neg (by omega), if_neg (by omega)], ?_⟩
  intro i
  simp only [BitVec.getLsbD_shiftLeft, BitVec.getLsbD_ushiftRight, BitVec.getLsbD_not,
    BitVec.getLsbD_zero, Bool.not_false, Bool.and_true]
  by_cases a : i < W <;> by_cases b : i < start <;> by_cases c : i ≤ stop <;>
    simp [a, b, c] <;> omega

/-- supported line sizes: 8, 16, 32, 64 and 128 sectors. -/
def Width (w : Nat) : Prop := w = 8 ∨ w = 16 ∨ w = 32 ∨ w = 64 ∨ w = 128

theorem typeMask_bit {w start stop : Nat} (hw : Width w) (h1 : start ≤ stop) (h2 : stop < w) :
    ∃ m, typeMask w start stop = some m ∧
      ∀ i, i < w → m.getLsbD i = decide (start ≤ i ∧ i ≤ stop) := by
  have hW : w ≤ maskWidth w := by
    unfold maskWidth; rcases hw with h | h | h | h | h <;> subst h <;> simp
  obtain ⟨m, hm, hb⟩ := getMask_bit (maskWidth w) start stop h1 (by omega)
  refine ⟨m.setWidth w, by simp [typeMask, hm], fun i hi => ?_⟩
  simp only [BitVec.getLsbD_setWidth, hi, decide_true, Bool.true_and, hb]

theorem ne_zero_iff {w} (x : BitVec w) : x ≠ 0#w ↔ ∃ i, i < w ∧ x.getLsbD i = true := by
  constructor
  · intro h
    apply Classical.byContradiction
    intro hn
    apply h
    apply BitVec.eq_of_getLsbD_eq
    intro i hi
    cases hx : x.getLsbD i
    · simp
    · exact absurd ⟨i, hi, hx⟩ hn
  · rintro ⟨i, hi, hx⟩ rfl
    simp at hx

end Verif.Bits
