import Verif.Lemma.HashLock

/-!
C09: bucket locks of a request are taken for exactly its bucket set, each once, ascending;
hence no deadlock. Specification: the bucket set of a request is the set of hashes of its
core lines, stated with the hash function only.
-/

namespace Verif.HashLock

/-- Specification: bucket `h` is needed by the request iff some core line of it hashes to `h`. -/
def Needed (r : Req) (h : Nat) : Prop :=
  ∃ coreLine, r.first ≤ coreLine ∧ coreLine < r.first + r.count ∧
    hashFunc r.numHash r.coreOff coreLine = h

theorem needed_iff (r : Req) (h : Nat) : Needed r h ↔ ∃ i, i < r.count ∧ r.hashAt i = h := by
  constructor
  · rintro ⟨c, h1, h2, h3⟩
    exact ⟨c - r.first, by omega, by rw [Req.hashAt, Nat.add_sub_cancel' h1]; exact h3⟩
  · rintro ⟨i, hi, h3⟩
    exact ⟨r.first + i, by omega, by omega, h3⟩

/-- C09: the lock order visits exactly the needed buckets. -/
theorem lockOrder_mem (r : Req) (hN : 0 < r.numHash) (hn : 0 < r.count) (h : Nat) :
    h ∈ r.lockOrder ↔ Needed r h := by
  obtain ⟨ha, hf⟩ := macro_facts r hN hn
  rw [needed_iff]
  have : (∃ i, i < r.count ∧ r.hashAt i = h) ↔ ∃ i, i < r.count ∧ (r.hashAt 0 + i) % r.numHash = h := by
    constructor
    · rintro ⟨i, hi, rfl⟩; exact ⟨i, hi, (hashAt_eq r i).symm⟩
    · rintro ⟨i, hi, rfl⟩; exact ⟨i, hi, hashAt_eq r i⟩
  rw [this, exists_hash_iff _ _ _ _ hN ha hn]
  unfold Req.lockOrder
  split at hf
  · rename_i hm
    obtain ⟨hmin, hmax, hg⟩ := hf
    rw [mem_iterFrom_noGap r hg, hmin, hmax, if_pos hm]; omega
  · rename_i hm
    obtain ⟨hmin, hmax, hf⟩ := hf
    rw [if_neg hm]
    split at hf
    · obtain ⟨hg, hgs, hgv⟩ := hf
      rw [mem_iterFrom_gap r hg _ _ (by omega), hmin, hmax, hgs, hgv]; omega
    · rw [mem_iterFrom_noGap r hf, hmin, hmax]; omega

/-- C09: the lock order is strictly ascending, so no bucket is taken twice. -/
theorem lockOrder_ascending (r : Req) : r.lockOrder.Pairwise (· < ·) :=
  (iterFrom_sorted r _).1

/-- C09: `ocf_req_hash_in_range` answers exactly membership in the bucket set
(the question is asked for hashes, which are below `numHash`). -/
theorem hashInRange_iff (r : Req) (hN : 0 < r.numHash) (hn : 0 < r.count) (h : Nat) :
    r.hashInRange h = true ↔ Needed r h := by
  rw [← lockOrder_mem r hN hn]
  obtain ⟨ha, hf⟩ := macro_facts r hN hn
  unfold Req.lockOrder Req.hashInRange
  cases hg : r.hasGap with
  | false =>
    rw [mem_iterFrom_noGap r hg]; simp
  | true =>
    split at hf
    · simp [hg] at hf
    · obtain ⟨hmin, hmax, hf⟩ := hf
      split at hf
      · obtain ⟨_, hgs, hgv⟩ := hf
        rw [mem_iterFrom_gap r hg _ _ (by omega), hmin, hmax, hgs, hgv]
        simp; omega
      · simp [hf] at hg

/-- A thread inside the locking loop of a request: it holds the buckets before position `pos`
in its lock order and is about to take (waits for) the bucket at `pos`. -/
structure Thread where
  req : Req
  pos : Nat

/-- buckets held by a thread. -/
def Thread.held (t : Thread) : List Nat := t.req.lockOrder.take t.pos

/-- bucket a thread is waiting for, if it is still in the loop. -/
def Thread.waits (t : Thread) : Option Nat := t.req.lockOrder[t.pos]?

/-- C09, deadlock freedom: among any finite non-empty collection of threads that are all still
waiting for a bucket, some thread waits for a bucket that none of them holds. -/
theorem no_deadlock (ts : List Thread) (hne : ts ≠ [])
    (hw : ∀ t ∈ ts, t.waits.isSome) :
    ∃ t ∈ ts, ∃ b, t.waits = some b ∧ ∀ u ∈ ts, b ∉ u.held := by
  have key : ∀ ts : List Thread, ts ≠ [] → (∀ t ∈ ts, t.waits.isSome) →
      ∃ t ∈ ts, ∃ b, t.waits = some b ∧ ∀ u ∈ ts, ∀ c, u.waits = some c → c ≤ b := by
    intro ts
    induction ts with
    | nil => intro h; exact absurd rfl h
    | cons a l ih =>
      intro _ hw
      obtain ⟨ba, hba⟩ := Option.isSome_iff_exists.1 (hw a (by simp))
      by_cases hl : l = []
      · subst hl
        refine ⟨a, by simp, ba, hba, ?_⟩
        intro u hu c hc
        simp at hu; subst hu; rw [hba] at hc; cases hc; exact Nat.le_refl _
      · obtain ⟨t, ht, b, hb, hmax⟩ := ih hl (fun t ht => hw t (by simp [ht]))
        by_cases hlt : b ≤ ba
        · refine ⟨a, by simp, ba, hba, ?_⟩
          intro u hu c hc
          rcases List.mem_cons.1 hu with rfl | hu
          · rw [hba] at hc; cases hc; exact Nat.le_refl _
          · exact Nat.le_trans (hmax u hu c hc) hlt
        · refine ⟨t, by simp [ht], b, hb, ?_⟩
          intro u hu c hc
          rcases List.mem_cons.1 hu with rfl | hu
          · rw [hba] at hc; cases hc; omega
          · exact hmax u hu c hc
  obtain ⟨t, ht, b, hb, hmax⟩ := key ts hne hw
  refine ⟨t, ht, b, hb, fun u hu hheld => ?_⟩
  obtain ⟨c, hc⟩ := Option.isSome_iff_exists.1 (hw u hu)
  have hcb := hmax u hu c hc
  -- `u` holds `b` before position `pos`, and waits for `c` at `pos`, so `b < c`
  have hsorted := lockOrder_ascending u.req
  obtain ⟨i, hi, hbi⟩ := List.getElem_of_mem hheld
  simp only [Thread.held, List.length_take, List.getElem_take] at hi hbi
  obtain ⟨hpos, hcp⟩ := List.getElem?_eq_some_iff.1 hc
  have := (List.pairwise_iff_getElem.1 hsorted) i u.pos (by omega) hpos (by omega)
  omega

/-! Non-vacuity: the examples of the C comment (`ocf_metadata_concurrency.c:424-430`). -/

example : (Req.mk 5 0 2 4).lockOrder = [0, 2, 3, 4] := by
  simp [Req.lockOrder, Req.iterFrom, Req.hashNext, Req.minHash, Req.maxHash, Req.hasGap,
    Req.gapStart, Req.gapVal, Req.hashCount, Req.isMonotonic, Req.hashAt, hashFunc]

example : (Req.mk 5 0 2 10).lockOrder = [0, 1, 2, 3, 4] := by
  simp [Req.lockOrder, Req.iterFrom, Req.hashNext, Req.minHash, Req.maxHash, Req.hasGap,
    Req.gapStart, Req.gapVal, Req.hashCount, Req.isMonotonic, Req.hashAt, hashFunc]

example : ∃ t u : Thread, t.waits = some 4 ∧ u.waits = some 3 ∧ t.held = [0] ∧ u.held = [2] := by
  refine ⟨⟨⟨5, 0, 4, 2⟩, 1⟩, ⟨⟨5, 0, 2, 3⟩, 1⟩, ?_, ?_, ?_, ?_⟩ <;>
  simp [Thread.waits, Thread.held, Req.lockOrder, Req.iterFrom, Req.hashNext, Req.minHash,
    Req.maxHash, Req.hasGap, Req.gapStart, Req.gapVal, Req.hashCount, Req.isMonotonic, Req.hashAt,
    hashFunc]

end Verif.HashLock
