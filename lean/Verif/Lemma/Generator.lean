import Verif.Model.Generator
import Mathlib.Data.List.Nodup
import Mathlib.Data.List.Perm.Basic
import Mathlib.Data.List.Range
import Mathlib.Tactic.IntervalCases

namespace Verif.Generator

theorem bitreverse32_bit (x : BitVec 32) (i : Nat) (hi : i < 32) :
    (bitreverse32 x).getLsbD i = x.getLsbD (31 - i) := by
  interval_cases i <;> simp [bitreverse32]

/-- Bits of a generated value: the low `k` bits of `curr` in reverse order. -/
theorem value_testBit (k c i : Nat) (hk : k ≤ 32) :
    (value (32 - k) c).testBit i = (decide (i < k) && c.testBit (k - 1 - i)) := by
  unfold value
  rw [BitVec.testBit_toNat, BitVec.getLsbD_ushiftRight]
  by_cases h : i < k
  · rw [bitreverse32_bit _ _ (by omega), BitVec.getLsbD_ofNat]
    have : 31 - (32 - k + i) = k - 1 - i := by omega
    rw [this]
    simp [h, show k - 1 - i < 32 by omega]
  · rw [BitVec.getLsbD_of_ge _ _ (by omega)]
    simp [h]

theorem value_lt (k c : Nat) (hk : k ≤ 32) : value (32 - k) c < 2 ^ k := by
  apply Nat.lt_pow_two_of_testBit
  intro i hi
  rw [value_testBit k c i hk]
  simp [show ¬ i < k by omega]

theorem value_value (k c : Nat) (hk : k ≤ 32) (hc : c < 2 ^ k) :
    value (32 - k) (value (32 - k) c) = c := by
  apply Nat.eq_of_testBit_eq
  intro i
  rw [value_testBit k _ i hk, value_testBit k _ _ hk]
  by_cases h : i < k
  · simp only [h, decide_true, Bool.true_and, show k - 1 - i < k by omega]
    congr 1; omega
  · simp only [h, decide_false, Bool.false_and]
    exact (Nat.testBit_lt_two_pow (Nat.lt_of_lt_of_le hc (Nat.pow_le_pow_right (by omega) (by omega)))).symm

theorem value_zero (k : Nat) (hk : k ≤ 32) : value (32 - k) 0 = 0 := by
  apply Nat.eq_of_testBit_eq
  intro i
  rw [value_testBit k _ i hk]
  simp

/-- Parameters computed from the limit. -/
theorem params (limit : Nat) (h1 : 2 ≤ limit) (h2 : limit ≤ 2 ^ 31) :
    ∃ k, 1 ≤ k ∧ k ≤ 31 ∧ clz32 (limit - 1) = some (32 - k) ∧ maplen (32 - k) = some (2 ^ k) ∧
      limit ≤ 2 ^ k := by
  have hx : limit - 1 ≠ 0 := by omega
  have hlog : (limit - 1).log2 < 31 := (Nat.log2_lt hx).2 (by omega)
  refine ⟨(limit - 1).log2 + 1, by omega, by omega, ?_, ?_, ?_⟩
  · simp only [clz32, hx, if_false]
    congr 1; omega
  · simp only [maplen, show ¬ (32 - ((limit - 1).log2 + 1) = 0) by omega, if_false]
    congr 2; omega
  · have := @Nat.lt_log2_self (limit - 1)
    omega

section loop
variable (k limit : Nat) (hk : k ≤ 32) (hlim : 0 < limit)

/-- the value at absolute position `p` of the cyclic sequence -/
abbrev val (k p : Nat) : Nat := value (32 - k) (p % 2 ^ k)

theorem nextLoop_mono (clz m limit : Nat) : ∀ f f' c r, f ≤ f' →
    nextLoop clz m limit f c = some r → nextLoop clz m limit f' c = some r := by
  intro f
  induction f with
  | zero => intro f' c r _ h; simp [nextLoop] at h
  | succ f ih =>
    intro f' c r hle h
    cases f' with
    | zero => omega
    | succ f' =>
      simp only [nextLoop] at h ⊢
      split at h
      · rename_i hv
        rw [if_pos hv]; exact ih f' _ r (by omega) h
      · rename_i hv
        rw [if_neg hv]; exact h

include hk hlim in
theorem nextLoop_some (c : Nat) (hc : c < 2 ^ k) : ∀ f, (2 ^ k - c) % 2 ^ k < f →
    ∃ r, nextLoop (32 - k) (2 ^ k) limit f c = some r := by
  have hM : 0 < 2 ^ k := Nat.two_pow_pos k
  intro f
  induction f generalizing c with
  | zero => intro h; omega
  | succ f ih =>
    intro h
    simp only [nextLoop]
    split
    · rename_i hv
      have hc0 : c ≠ 0 := by
        rintro rfl
        rw [value_zero k hk] at hv; omega
      rw [Nat.mod_eq_of_lt (show 2 ^ k - c < 2 ^ k by omega)] at h
      apply ih _ (Nat.mod_lt _ hM)
      by_cases hlast : c + 1 = 2 ^ k
      · rw [hlast]; simp; omega
      · rw [Nat.mod_eq_of_lt (show c + 1 < 2 ^ k by omega),
          Nat.mod_eq_of_lt (show 2 ^ k - (c + 1) < 2 ^ k by omega)]
        omega
    · exact ⟨_, rfl⟩

include hk hlim in
/-- Skipping a rejected position does not change what the loop finds. -/
theorem nextLoop_skip (c : Nat) (hc : c < 2 ^ k) (hv : value (32 - k) c ≥ limit) :
    nextLoop (32 - k) (2 ^ k) limit (2 ^ k) c =
      nextLoop (32 - k) (2 ^ k) limit (2 ^ k) ((c + 1) % 2 ^ k) := by
  have hM : 0 < 2 ^ k := Nat.two_pow_pos k
  obtain ⟨m, hm⟩ : ∃ m, 2 ^ k = m + 1 := ⟨2 ^ k - 1, by omega⟩
  obtain ⟨r, hr⟩ := nextLoop_some k limit hk hlim c hc (2 ^ k) (Nat.mod_lt _ hM)
  have h2 := hr
  rw [hm] at hr
  simp only [nextLoop] at hr
  rw [if_pos hv, ← hm] at hr
  rw [h2]
  exact (nextLoop_mono _ _ _ m (2 ^ k) _ r (by omega) hr).symm

end loop

theorem next_eq (k limit c : Nat) (h1 : clz32 (limit - 1) = some (32 - k))
    (h2 : maplen (32 - k) = some (2 ^ k)) :
    next ⟨c, limit⟩ = (nextLoop (32 - k) (2 ^ k) limit (2 ^ k) c).map
      fun r => (r.1, (⟨r.2, limit⟩ : State)) := by
  unfold next
  simp only [h1, Option.bind_eq_bind, Option.bind_some, h2]
  cases nextLoop (32 - k) (2 ^ k) limit (2 ^ k) c <;> rfl

theorem calls_succ (n : Nat) (s : State) :
    calls (n + 1) s = (next s).bind fun r => (calls n r.2).map (r.1 :: ·) := by
  simp only [calls, Option.bind_eq_bind]
  cases next s with
  | none => rfl
  | some r => simp only [Option.bind_some]; cases calls n r.2 <;> rfl

/-- What successive calls return: the values at the successive positions, without the ones that
are too large. -/
theorem calls_eq (k limit : Nat) (hk : k ≤ 31) (h1 : clz32 (limit - 1) = some (32 - k))
    (h2 : maplen (32 - k) = some (2 ^ k)) (hlim : 0 < limit) (m p : Nat) :
    let L := ((List.range' p m).map (val k)).filter (· < limit)
    calls L.length ⟨p % 2 ^ k, limit⟩ = some L := by
  have hM : 0 < 2 ^ k := Nat.two_pow_pos k
  induction m generalizing p with
  | zero => simp [calls]
  | succ m ih =>
    have ih' := ih (p + 1)
    have hpm : (p % 2 ^ k + 1) % 2 ^ k = (p + 1) % 2 ^ k := by simp
    simp only [List.range'_succ, List.map_cons]
    by_cases hv : val k p < limit
    · rw [List.filter_cons_of_pos (by simpa using hv)]
      rw [List.length_cons, calls_succ, next_eq k limit _ h1 h2]
      obtain ⟨q, hq⟩ : ∃ q, 2 ^ k = q + 1 := ⟨2 ^ k - 1, by omega⟩
      have : nextLoop (32 - k) (2 ^ k) limit (2 ^ k) (p % 2 ^ k) = some (val k p, (p + 1) % 2 ^ k) := by
        have hd : ∀ f, nextLoop (32 - k) (2 ^ k) limit (f + 1) (p % 2 ^ k) =
            some (val k p, (p + 1) % 2 ^ k) := by
          intro f
          simp only [nextLoop, hpm]
          rw [if_neg (Nat.not_le.2 hv)]
        have h := hd q
        rwa [← hq] at h
      rw [this]
      simp only [Option.map_some, Option.bind_some]
      simp only at ih'
      rw [ih', Option.map_some]
    · rw [List.filter_cons_of_neg (by simpa using hv)]
      simp only at ih'
      revert ih'
      generalize ((List.range' (p + 1) m).map (val k)).filter (· < limit) = L
      cases L with
      | nil => simp [calls]
      | cons v L =>
        intro ih'
        rw [← ih']
        rw [List.length_cons, calls_succ, calls_succ, next_eq k limit _ h1 h2,
          next_eq k limit _ h1 h2,
          nextLoop_skip k limit (by omega) hlim (p % 2 ^ k) (Nat.mod_lt _ hM) (Nat.le_of_not_lt hv),
          hpm]

/-- The filtered cycle is a permutation of all indices below the limit. -/
theorem cycle_perm (k limit c : Nat) (hk : k ≤ 31) (hle : limit ≤ 2 ^ k) :
    (((List.range' c (2 ^ k)).map (val k)).filter (· < limit)).Perm (List.range limit) := by
  have hM : 0 < 2 ^ k := Nat.two_pow_pos k
  have hinj : ∀ a b, val k a = val k b → a % 2 ^ k = b % 2 ^ k := by
    intro a b h
    have := congrArg (value (32 - k)) h
    rwa [value_value k _ (by omega) (Nat.mod_lt _ hM), value_value k _ (by omega) (Nat.mod_lt _ hM)] at this
  have hnd : ((List.range' c (2 ^ k)).map (val k)).Nodup := by
    apply List.Nodup.map_on _ List.nodup_range'
    intro x hx y hy hxy
    rw [List.mem_range'_1] at hx hy
    have h := hinj x y hxy
    have hdx := Nat.div_add_mod x (2 ^ k)
    have hdy := Nat.div_add_mod y (2 ^ k)
    rcases Nat.lt_trichotomy (x / 2 ^ k) (y / 2 ^ k) with hlt | heq | hgt
    · have := Nat.mul_le_mul_left (2 ^ k) (show x / 2 ^ k + 1 ≤ y / 2 ^ k from hlt)
      rw [Nat.mul_add] at this; omega
    · rw [heq] at hdx; omega
    · have := Nat.mul_le_mul_left (2 ^ k) (show y / 2 ^ k + 1 ≤ x / 2 ^ k from hgt)
      rw [Nat.mul_add] at this; omega
  rw [List.perm_ext_iff_of_nodup (hnd.filter _) List.nodup_range]
  intro v
  simp only [List.mem_filter, List.mem_map, List.mem_range'_1, List.mem_range, decide_eq_true_eq]
  constructor
  · exact fun h => h.2
  · intro hv
    refine ⟨?_, hv⟩
    -- the position of `v` modulo the cycle is `value v`
    let q := value (32 - k) v
    have hq : q < 2 ^ k := value_lt k v (by omega)
    have hqv : value (32 - k) q = v := value_value k v (by omega) (by omega)
    have hcm := Nat.mod_lt c hM
    have hdc := Nat.div_add_mod c (2 ^ k)
    by_cases hge : c % 2 ^ k ≤ q
    · refine ⟨c + (q - c % 2 ^ k), by omega, ?_⟩
      have : c + (q - c % 2 ^ k) = q + 2 ^ k * (c / 2 ^ k) := by omega
      simp only [val, this, Nat.add_mul_mod_self_left, Nat.mod_eq_of_lt hq, hqv]
    · refine ⟨c + (2 ^ k - c % 2 ^ k + q), by omega, ?_⟩
      have : c + (2 ^ k - c % 2 ^ k + q) = q + 2 ^ k * (c / 2 ^ k + 1) := by
        rw [Nat.mul_add]; omega
      simp only [val, this, Nat.add_mul_mod_self_left, Nat.mod_eq_of_lt hq, hqv]

end Verif.Generator
