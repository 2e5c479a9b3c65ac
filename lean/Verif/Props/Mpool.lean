import Verif.Model.Mpool

/-!
C41. Pool allocations are large enough, and memory goes back to the allocator it came from.
-/

namespace Verif.Mpool

theorem ffs_dvd : ∀ n x, x ≠ 0 → x < 2 ^ n → ∃ k, ffs n x = k + 1 ∧ 2 ^ k ∣ x ∧ ¬ 2 ^ (k + 1) ∣ x
  | 0, x, h0, h => by simp at h; omega
  | n + 1, x, h0, h => by
    unfold ffs
    by_cases h1 : x % 2 = 1
    · rw [if_pos h1]
      exact ⟨0, rfl, Nat.one_dvd _, fun hd => by
        have : 2 ^ (0 + 1) = 2 := rfl
        rw [this] at hd
        omega⟩
    · rw [if_neg h1, if_neg h0]
      obtain ⟨k, hk, hd, hnd⟩ := ffs_dvd n (x / 2) (by omega) (by rw [Nat.pow_succ] at h; omega)
      refine ⟨k + 1, by rw [hk], ?_, ?_⟩
      · obtain ⟨q, hq⟩ := hd
        refine ⟨q, ?_⟩
        rw [Nat.pow_succ, Nat.mul_assoc, Nat.mul_comm 2 q, ← Nat.mul_assoc, ← hq]
        omega
      · rintro ⟨q, hq⟩
        apply hnd
        refine ⟨q, ?_⟩
        rw [hq, Nat.pow_succ, Nat.mul_assoc, Nat.mul_comm 2 q, ← Nat.mul_assoc, Nat.mul_div_cancel _ (by omega)]

/-- The order chosen is the least one that fits. -/
theorem order_exact (p : Pool) (count : Nat) (hc : 0 < count) (h32 : count < 2 ^ 32) :
    (∀ i, p.order count = some i → count ≤ 2 ^ i ∧ (∀ j, count ≤ 2 ^ j → i ≤ j) ∧ i ≤ p.max ∧ i < 8) ∧
    (p.order count = none → ∀ i, i ≤ p.max → i < 8 → 2 ^ i < count) := by
  have h0 : count ≠ 0 := by omega
  obtain ⟨k, hk, hd, hnd⟩ := ffs_dvd 32 count h0 h32
  have hlo : 2 ^ Nat.log2 count ≤ count := Nat.log2_self_le h0
  have hhi : count < 2 ^ (Nat.log2 count + 1) := Nat.lt_log2_self
  have hkl : 2 ^ k ≤ count := Nat.le_of_dvd hc hd
  have hkle : k ≤ Nat.log2 count := (Nat.le_log2 h0).2 hkl
  generalize hL : Nat.log2 count = L at *
  -- the order before the check of limits
  have key : ∃ i, (if ffs 32 count ≤ L then L + 1 else L) = i ∧ count ≤ 2 ^ i ∧
      ∀ j, count ≤ 2 ^ j → i ≤ j := by
    by_cases h : ffs 32 count ≤ L
    · rw [if_pos h]
      refine ⟨L + 1, rfl, by omega, ?_⟩
      intro j hj
      rcases Nat.lt_or_ge j (L + 1) with h' | h'
      · exfalso
        have h1 : 2 ^ j ≤ 2 ^ L := Nat.pow_le_pow_right (by omega) (by omega)
        have h2 : count = 2 ^ L := by omega
        apply hnd
        rw [h2]
        exact Nat.pow_dvd_pow 2 (by omega)
      · exact h'
    · rw [if_neg h]
      have hkL : k = L := by omega
      subst hkL
      refine ⟨k, rfl, ?_, ?_⟩
      · obtain ⟨q, hq⟩ := hd
        have hpow : 2 ^ (k + 1) = 2 ^ k * 2 := Nat.pow_succ ..
        rw [hpow, hq] at hhi
        have : q < 2 := Nat.lt_of_mul_lt_mul_left hhi
        have : q = 1 := by
          rcases Nat.eq_zero_or_pos q with h | h
          · subst h; omega
          · omega
        subst this
        omega
      · intro j hj
        rcases Nat.lt_or_ge j k with h' | h'
        · exfalso
          have h1 : 2 ^ j < 2 ^ k := Nat.pow_lt_pow_right (by omega) h'
          omega
        · exact h'
  obtain ⟨i, hi, hfit, hleast⟩ := key
  have ho : p.order count = if 8 ≤ i ∨ p.max < i then none else some i := by
    unfold Pool.order
    rw [if_neg h0]
    dsimp only
    rw [hL, hi]
  rw [ho]
  constructor
  · intro x hx
    split at hx
    · cases hx
    · rename_i hn
      cases hx
      exact ⟨hfit, hleast, by omega, by omega⟩
  · intro hx x hx1 hx2
    split at hx
    · rename_i hn
      rcases Nat.lt_or_ge (2 ^ x) count with h | h
      · exact h
      · have := hleast x h; omega
    · cases hx

/-- Whatever is allocated for `count` elements has room for the header and `count` elements, and
without a fallback there is none only if `count` is more than the largest class. -/
theorem new_fits (p : Pool) (count : Nat) (hc : 0 < count) (h32 : p.hdr + p.elem * count < 2 ^ 32)
    (hcount : count < 2 ^ 32)
    (hmax : ∀ i, i ≤ p.max → i < 8 → p.hdr + p.elem * 2 ^ i < 2 ^ 32) :
    (∀ b n, p.new count = some (b, n) → p.hdr + p.elem * count ≤ n) ∧
    (p.new count = none → p.fallback = false ∧ ∀ i, i ≤ p.max → i < 8 → 2 ^ i < count) := by
  obtain ⟨o1, o2⟩ := order_exact p count hc hcount
  unfold Pool.new
  cases ho : p.order count with
  | some i =>
    obtain ⟨a, _, c, d⟩ := o1 i ho
    constructor
    · intro b n h
      cases h
      unfold Pool.size
      rw [Nat.mod_eq_of_lt (hmax i c d)]
      exact Nat.add_le_add_left (Nat.mul_le_mul_left _ a) _
    · intro h; cases h
  | none =>
    dsimp only
    constructor
    · intro b n h
      split at h
      · cases h; rw [Nat.mod_eq_of_lt h32]; exact Nat.le_refl _
      · cases h
    · intro h
      split at h
      · cases h
      · rename_i hf
        exact ⟨by simpa using hf, o2 ho⟩

example : (⟨7, 100, 24, false⟩ : Pool).new 5 = some (.item 3, 100 + 24 * 8) := by decide +kernel
example : (⟨7, 100, 24, false⟩ : Pool).new 129 = none ∧
    (⟨7, 100, 24, true⟩ : Pool).new 129 = some (.raw 3196, 3196) := by decide +kernel

/-- Freed memory goes back to where it came from. -/
theorem del_matches (p : Pool) (count : Nat) (b : Block) (n : Nat) (h : p.new count = some (b, n)) :
    p.del count = some (match b with | .item i => some i | .raw _ => none) := by
  unfold Pool.new at h
  unfold Pool.del
  cases ho : p.order count with
  | some i => rw [ho] at h; cases h; rfl
  | none =>
    rw [ho] at h
    dsimp only at h ⊢
    split at h
    · rename_i hf; cases h; rw [if_pos hf]
    · cases h

example : (⟨7, 100, 24, false⟩ : Pool).del 5 = some (some 3) := by decide +kernel

/-- Every request for `count ≥ 1` lines gets memory; if its map is within the request, then the
structure, `count` map entries and the lock status of `count` lines follow each other within that
memory; and when the request is freed with its `alloc_core_line_count` the memory goes back to the
allocator it came from. -/
theorem request_fits (req info count : Nat) (hc : 0 < count) (hcount : count < 2 ^ 32)
    (hsz : req + 16 + info * 128 < 2 ^ 32) :
    ∃ a, reqAlloc req info count = some a ∧
      (reqPool req info).del a.allocCount = some (match a.block with | .item i => some i | .raw _ => none) ∧
      req ≤ a.bytes ∧ (a.inner = none ↔ 128 < count) ∧
      ∀ m s, a.inner = some (m, s) → req ≤ m ∧ m + count * info ≤ s ∧ s + alockSize count ≤ a.bytes := by
  have halock : alockSize (2 ^ 7) = 16 := by decide
  have hmax : ∀ i, i ≤ (reqPool req info).max → i < 8 →
      (reqPool req info).hdr + (reqPool req info).elem * 2 ^ i < 2 ^ 32 := by
    intro i hi _
    show req + alockSize (2 ^ 7) + info * 2 ^ i < 2 ^ 32
    rw [halock]
    have : info * 2 ^ i ≤ info * 2 ^ 7 :=
      Nat.mul_le_mul_left _ (Nat.pow_le_pow_right (by omega) hi)
    have e : (2 : Nat) ^ 7 = 128 := rfl
    rw [e] at this
    omega
  obtain ⟨o1, o2⟩ := order_exact (reqPool req info) count hc hcount
  have hmx : (reqPool req info).max = 7 := rfl
  rw [hmx] at o1 o2
  unfold reqAlloc
  cases ho : (reqPool req info).order count with
  | some i =>
    obtain ⟨a, b, c, d⟩ := o1 i ho
    have hn : (reqPool req info).new count = some (.item i, (reqPool req info).size i) := by
      unfold Pool.new; rw [ho]
    rw [hn]
    refine ⟨_, rfl, del_matches _ _ _ _ hn, ?_, ?_, ?_⟩
    · show req ≤ (reqPool req info).size i
      unfold Pool.size
      rw [Nat.mod_eq_of_lt (hmax i c d)]
      show req ≤ req + alockSize (2 ^ 7) + _
      omega
    · constructor
      · intro h; cases h
      · intro h
        exfalso
        have : 2 ^ i ≤ 2 ^ 7 := Nat.pow_le_pow_right (by omega) c
        omega
    · intro m s h
      cases h
      refine ⟨Nat.le_refl _, Nat.le_refl _, ?_⟩
      show req + count * info + alockSize count ≤ (reqPool req info).size i
      unfold Pool.size
      rw [Nat.mod_eq_of_lt (hmax i c d)]
      show _ ≤ req + alockSize (2 ^ 7) + info * 2 ^ i
      rw [halock]
      have h1 : count * info ≤ info * 2 ^ i := by rw [Nat.mul_comm]; exact Nat.mul_le_mul_left _ a
      have h2 : count ≤ 128 := by
        have : 2 ^ i ≤ 2 ^ 7 := Nat.pow_le_pow_right (by omega) c
        omega
      have h3 : alockSize count ≤ 16 := by unfold alockSize; omega
      omega
  | none =>
    have hn : (reqPool req info).new count = none := by unfold Pool.new; rw [ho]; rfl
    have h1 : (reqPool req info).new 1 = some (.item 0, (reqPool req info).size 0) := by
      have : (reqPool req info).order 1 = some 0 := by
        unfold Pool.order
        rw [hmx]
        decide
      unfold Pool.new; rw [this]
    rw [hn, h1]
    refine ⟨_, rfl, del_matches _ _ _ _ h1, ?_, ?_, ?_⟩
    · show req ≤ (reqPool req info).size 0
      unfold Pool.size
      rw [Nat.mod_eq_of_lt (hmax 0 (by omega) (by omega))]
      show req ≤ req + alockSize (2 ^ 7) + _
      omega
    · exact ⟨fun _ => o2 ho 7 (by omega) (by omega), fun _ => rfl⟩
    · intro m s h; cases h

example : reqAlloc 400 24 5 = some ⟨.item 3, 416 + 24 * 8, 5, some (400, 520)⟩ := by decide +kernel
example : reqAlloc 400 24 129 = some ⟨.item 0, 416 + 24, 1, none⟩ := by decide +kernel

/-- The lock status has a bit for every line, in whole 8-byte words. -/
theorem alockSize_fits (lines : Nat) : lines ≤ 8 * alockSize lines ∧ 8 ∣ alockSize lines := by
  unfold alockSize
  exact ⟨by omega, by omega⟩

/-- A separately allocated map has room for the entries and the lock status. -/
theorem map_fits (info count : Nat) :
    count * info ≤ (mapAlloc info count).2 ∧
    (mapAlloc info count).2 + alockSize count ≤ (mapAlloc info count).1 ∧
    count ≤ 8 * ((mapAlloc info count).1 - (mapAlloc info count).2) := by
  unfold mapAlloc
  have := (alockSize_fits count).1
  dsimp only
  omega

example : mapAlloc 24 130 = (3144, 3120) := by decide

end Verif.Mpool
