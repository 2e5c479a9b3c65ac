import Verif.Model.HashLock

namespace Verif.HashLock

/-- Closed form of the visited list: all buckets in `[h, maxHash]` outside the gap. -/
theorem iterFrom_sorted (r : Req) (h : Nat) :
    (r.iterFrom h).Pairwise (· < ·) ∧ ∀ x ∈ r.iterFrom h, h ≤ x := by
  fun_induction Req.iterFrom r h with
  | case1 h hle ih =>
    refine ⟨List.pairwise_cons.2 ⟨fun x hx => ?_, ih.1⟩, fun x hx => ?_⟩
    · have := ih.2 x hx
      simp only [Req.hashNext] at this; omega
    · rcases List.mem_cons.1 hx with rfl | hx
      · omega
      · have := ih.2 x hx
        simp only [Req.hashNext] at this; omega
  | case2 h hgt => simp

theorem mem_iterFrom_noGap (r : Req) (hg : r.hasGap = false) (h x : Nat) :
    x ∈ r.iterFrom h ↔ h ≤ x ∧ x ≤ r.maxHash := by
  fun_induction Req.iterFrom r h with
  | case1 h hle ih =>
    simp only [Req.hashNext, hg, Bool.false_and, Bool.false_eq_true, if_false] at ih
    simp only [List.mem_cons, Req.hashNext, hg, Bool.false_and, Bool.false_eq_true, if_false, ih]
    omega
  | case2 h hgt => simp; omega

theorem mem_iterFrom_gap (r : Req) (hg : r.hasGap = true) (h x : Nat)
    (hh : h ≤ r.gapStart ∨ r.gapStart + r.gapVal < h) :
    x ∈ r.iterFrom h ↔ h ≤ x ∧ x ≤ r.maxHash ∧ (x ≤ r.gapStart ∨ r.gapStart + r.gapVal < x) := by
  fun_induction Req.iterFrom r h with
  | case1 h hle ih =>
    simp only [List.mem_cons, Req.hashNext, hg, Bool.true_and, beq_iff_eq] at ih ⊢
    by_cases he : h = r.gapStart
    · simp only [he, if_true] at ih ⊢
      rw [ih (by omega)]; omega
    · simp only [he, if_false] at ih ⊢
      rw [ih (by omega)]; omega
  | case2 h hgt => simp; omega

theorem hashAt_eq (r : Req) (i : Nat) : r.hashAt i = (r.hashAt 0 + i) % r.numHash := by
  simp only [Req.hashAt, hashFunc, Nat.add_zero, Nat.mod_add_mod]
  congr 1; omega

/-- Which buckets the request's core lines hash to, by cases. -/
theorem exists_hash_iff (N a n h : Nat) (hN : 0 < N) (ha : a < N) (hn : 0 < n) :
    (∃ i, i < n ∧ (a + i) % N = h) ↔
      if a + n ≤ N then a ≤ h ∧ h < a + n
      else h < N ∧ (h < a + n - N ∨ a ≤ h) := by
  split
  · rename_i hm
    constructor
    · rintro ⟨i, hi, rfl⟩
      rw [Nat.mod_eq_of_lt (by omega)]; omega
    · rintro ⟨h1, h2⟩
      exact ⟨h - a, by omega, by rw [Nat.mod_eq_of_lt (by omega)]; omega⟩
  · rename_i hm
    constructor
    · rintro ⟨i, hi, rfl⟩
      refine ⟨Nat.mod_lt _ hN, ?_⟩
      by_cases hlt : a + i < N
      · rw [Nat.mod_eq_of_lt hlt]; omega
      · left
        rw [Nat.mod_eq_sub_mod (by omega)]
        exact Nat.lt_of_le_of_lt (Nat.mod_le _ _) (by omega)
    · rintro ⟨h1, h2⟩
      by_cases hah : a ≤ h
      · exact ⟨h - a, by omega, by rw [Nat.mod_eq_of_lt (by omega)]; omega⟩
      · refine ⟨N - a + h, by omega, ?_⟩
        have : a + (N - a + h) = h + N := by omega
        rw [this, Nat.add_mod_right, Nat.mod_eq_of_lt h1]

/-- Numeric facts about the macros, by cases on monotonicity. -/
theorem macro_facts (r : Req) (hN : 0 < r.numHash) (hn : 0 < r.count) :
    r.hashAt 0 < r.numHash ∧
    (if r.hashAt 0 + r.count ≤ r.numHash then
      r.minHash = r.hashAt 0 ∧ r.maxHash = r.hashAt 0 + r.count - 1 ∧ r.hasGap = false
    else r.minHash = 0 ∧ r.maxHash = r.numHash - 1 ∧
      if r.count < r.numHash then
        r.hasGap = true ∧ r.gapStart = r.hashAt 0 + r.count - 1 - r.numHash ∧
          r.gapVal = r.numHash - r.count
      else r.hasGap = false) := by
  have ha : r.hashAt 0 < r.numHash := Nat.mod_lt _ hN
  refine ⟨ha, ?_⟩
  have hlast := hashAt_eq r (r.count - 1)
  by_cases hm : r.hashAt 0 + r.count ≤ r.numHash
  · have hmono : r.isMonotonic = true := by simp [Req.isMonotonic, hm]
    rw [Nat.mod_eq_of_lt (by omega)] at hlast
    have hmin : r.minHash = r.hashAt 0 := by simp [Req.minHash, hmono]
    have hmax : r.maxHash = r.hashAt 0 + r.count - 1 := by
      simp only [Req.maxHash, hmono, if_true, hlast]; omega
    simp only [hm, if_true]
    refine ⟨hmin, hmax, ?_⟩
    simp only [Req.hasGap, hmin, hmax, Req.hashCount, decide_eq_false_iff_not]; omega
  · have hmono : r.isMonotonic = false := by simp [Req.isMonotonic]; omega
    have hmin : r.minHash = 0 := by simp [Req.minHash, hmono]
    have hmax : r.maxHash = r.numHash - 1 := by simp [Req.maxHash, hmono]
    simp only [hm, if_false]
    refine ⟨hmin, hmax, ?_⟩
    by_cases hc : r.count < r.numHash
    · rw [Nat.mod_eq_sub_mod (by omega), Nat.mod_eq_of_lt (by omega)] at hlast
      simp only [hc, if_true]
      refine ⟨?_, ?_, ?_⟩
      · simp only [Req.hasGap, hmin, hmax, Req.hashCount, decide_eq_true_eq]; omega
      · simp only [Req.gapStart, hlast]; omega
      · simp only [Req.gapVal, hmin, hmax, Req.hashCount]; omega
    · simp only [hc, if_false, Req.hasGap, hmin, hmax, Req.hashCount, decide_eq_false_iff_not]; omega

end Verif.HashLock
