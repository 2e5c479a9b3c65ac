import Verif.Lemma.Generator

/-!
C21. Specification: plain permutations of `[0, n)`.
-/

namespace Verif.Generator

/-- C21: from any start offset, `limit` successive calls return every index below `limit`
exactly once (and each call terminates). -/
theorem calls_perm (limit offset : Nat) (h1 : 2 ≤ limit) (h2 : limit ≤ 2 ^ 31)
    (ho : offset < limit) :
    ∃ s vs, init limit offset = some s ∧ calls limit s = some vs ∧ vs.Perm (List.range limit) := by
  obtain ⟨k, hk1, hk2, hclz, hmap, hle⟩ := params limit h1 h2
  have hM : 0 < 2 ^ k := Nat.two_pow_pos k
  have hc : offset * 2 ^ k / limit < 2 ^ k := by
    rw [Nat.div_lt_iff_lt_mul (by omega), Nat.mul_comm (2 ^ k)]
    exact Nat.mul_lt_mul_of_pos_right ho hM
  refine ⟨⟨offset * 2 ^ k / limit, limit⟩, _, by simp [init, hclz, hmap], ?_,
    cycle_perm k limit (offset * 2 ^ k / limit) hk2 hle⟩
  have := calls_eq k limit hk2 hclz hmap (by omega) (2 ^ k) (offset * 2 ^ k / limit)
  simp only [Nat.mod_eq_of_lt hc] at this
  rwa [(cycle_perm k limit _ hk2 hle).length_eq, List.length_range] at this

/-- C21 for the initial layout: with more cache lines than free lists, every cache line is put on
exactly one free list, exactly once, namely on list `cline % shards`. -/
theorem populate_exact (entries shards shardId : Nat) (hs : 0 < shards) (hid : shardId < shards)
    (h1 : shards < entries) (h2 : entries ≤ 2 ^ 31) :
    ∃ l, populate entries shards shardId = some l ∧ l.Nodup ∧
      ∀ cline, cline ∈ l ↔ cline < entries ∧ cline % shards = shardId := by
  have hp1 : 2 ≤ (entries + shards - 1) / shards := by
    rw [Nat.le_div_iff_mul_le hs]; omega
  have hp2 : (entries + shards - 1) / shards ≤ 2 ^ 31 := by
    apply Nat.le_trans _ h2
    rw [Nat.div_le_iff_le_mul_add_pred hs]
    have : entries ≤ shards * entries := Nat.le_mul_of_pos_left _ hs
    omega
  have hoff : shardId * ((entries + shards - 1) / shards) / shards < (entries + shards - 1) / shards := by
    rw [Nat.div_lt_iff_lt_mul hs, Nat.mul_comm]
    exact Nat.mul_lt_mul_of_pos_left hid (by omega)
  obtain ⟨s, vs, hi, hc, hperm⟩ := calls_perm _ _ hp1 hp2 hoff
  refine ⟨_, by simp only [populate, hi, hc, bind, Option.bind]; rfl, ?_, ?_⟩
  · apply List.Nodup.filter
    apply List.Nodup.map _ (hperm.nodup_iff.2 List.nodup_range)
    intro a b hab
    simp only [Nat.add_right_cancel_iff] at hab
    exact Nat.eq_of_mul_eq_mul_right hs hab
  · intro cline
    simp only [List.mem_filter, List.mem_map, hperm.mem_iff, List.mem_range, Bool.not_eq_true',
      decide_eq_false_iff_not, ge_iff_le, Nat.not_le]
    constructor
    · rintro ⟨⟨a, _, rfl⟩, hlt⟩
      refine ⟨hlt, ?_⟩
      rw [Nat.mul_comm, Nat.mul_add_mod, Nat.mod_eq_of_lt hid]
    · rintro ⟨hlt, hmod⟩
      refine ⟨⟨cline / shards, ?_, ?_⟩, hlt⟩
      · rw [Nat.div_lt_iff_lt_mul hs]
        have h3 := Nat.div_add_mod (entries + shards - 1) shards
        have h4 := Nat.mod_lt (entries + shards - 1) hs
        rw [Nat.mul_comm] at h3
        omega
      · rw [← hmod, Nat.mul_comm]; exact Nat.div_add_mod _ _

/-- Outside the stated sizes the code has undefined behaviour: a portion of one line makes
`__builtin_clz(0)` be evaluated. -/
theorem populate_undefined (shards entries shardId : Nat) (h : entries ≤ shards)
    (he : 0 < entries) : populate entries shards shardId = none := by
  have : (entries + shards - 1) / shards = 1 := by
    apply Nat.div_eq_of_lt_le <;> omega
  simp [populate, this, init, clz32]

/-! Non-vacuity: the sequence in the C comment, and a start offset. -/
example : ((init 16 0).bind (calls 16)) =
    some [0, 8, 4, 12, 2, 10, 6, 14, 1, 9, 5, 13, 3, 11, 7, 15] := by decide +kernel
example : ((init 5 3).bind (calls 5)) = some [1, 3, 0, 4, 2] := by decide +kernel

end Verif.Generator
