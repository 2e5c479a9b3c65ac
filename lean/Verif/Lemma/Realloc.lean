import Verif.Model.Realloc
import Verif.Lemma.Common

/-! Lemmas on the reallocator (C62). -/

namespace Verif.Realloc

theorem set_same (h : Nat → Option Blk) (p : Nat) (b : Option Blk) : set h p b p = b := by simp [set]
theorem set_ne (h : Nat → Option Blk) {p x : Nat} (b : Option Blk) (e : x ≠ p) : set h p b x = h x := by
  simp [set, e]

/-- The block held, as the pointer and the limit say. -/
structure Owns (s : St) (p : Nat) (b : Blk) : Prop where
  ptr : s.mem = some p
  blk : s.heap p = some b
  len : b.data.length = s.limit
  vm : b.vm = decide (kMax < s.limit)
  pos : 0 < s.limit

/-- Nothing held, or one block of the size the limit says from the allocator the limit says. -/
structure Inv (s : St) : Prop where
  own : (s.mem = none ∧ s.limit = 0) ∨ ∃ p b, Owns s p b
  ok : s.bad = false
  as : s.bug = false

theorem Inv.init {s : St} (h : Init s) : Inv s := by
  obtain ⟨s0, h1, h2, rfl⟩ := h
  exact ⟨Or.inl ⟨rfl, rfl⟩, h1, h2⟩

/-- Growing from nothing. -/
theorem grow_none {s : St} (hm : s.mem = none) (n q : Nat) (cp : Bool) :
    grow s n q cp = { s with heap := set s.heap q (some ⟨decide (kMax < n), List.replicate n 0⟩), limit := n
                             mem := some q } := by
  unfold grow
  simp only []
  rw [hm]

/-- Growing a block. -/
theorem grow_some {s : St} {p : Nat} {b : Blk} (o : Owns s p b) (n q : Nat) (hq : s.heap q = none)
    (hn : s.limit < n) (cp : Bool) (ok : s.bad = false) (as : s.bug = false) :
    grow s n q cp = { s with
      heap := set (set s.heap q (some ⟨decide (kMax < n),
        if cp then b.data ++ List.replicate (n - s.limit) 0 else List.replicate n 0⟩)) p none
      limit := n, mem := some q } := by
  have hne : p ≠ q := by
    intro e; have := o.blk; rw [e, hq] at this; cases this
  have hk : b.vm = decide (kMax < s.limit) := o.vm
  have hs : ∀ x y z, set (set (set s.heap q x) q y) p z = set (set s.heap q y) p z := by
    intro x y z; funext a; simp only [set]; split
    · rfl
    · split <;> rfl
  unfold grow
  simp only []
  rw [o.ptr]
  cases cp with
  | false =>
    simp only [free, Bool.false_eq_true, if_false]
    rw [set_ne _ _ hne, o.blk]
    simp [hk, ok]
  | true =>
    simp only [copy, if_true]
    rw [set_ne _ _ hne, o.blk, set_same]
    simp only [free]
    rw [set_ne _ _ hne, set_ne _ _ hne, o.blk]
    have ht : b.data.take s.limit = b.data := List.take_of_length_le (by rw [o.len]; exact Nat.le_refl _)
    have h1 : decide (b.data.length < s.limit) = false := by simp [o.len]
    have h2 : decide (n < s.limit) = false := by simp; omega
    simp [hk, ok, as, h1, h2, ht, hs]

/-- The space that is left is zeroed. -/
theorem zero_some {s : St} {p : Nat} {b : Blk} (o : Owns s p b) (n : Nat) (ok : s.bad = false) :
    zero s n = { s with
      heap := set s.heap p (some { b with data := b.data.take n ++ List.replicate (s.limit - n) 0 }) } := by
  unfold zero
  rw [o.ptr]
  simp only []
  rw [o.blk]
  have ht : b.data.drop s.limit = [] := List.drop_eq_nil_of_le (by rw [o.len]; exact Nat.le_refl _)
  have h1 : decide (b.data.length < s.limit) = false := by simp [o.len]
  simp [ht, h1, ok]

/-- Freeing a block. -/
theorem free_some {s : St} {p : Nat} {b : Blk} (o : Owns s p b) (ok : s.bad = false) :
    free s p = { s with heap := set s.heap p none } := by
  unfold free
  rw [o.blk]
  simp [o.vm, ok]

theorem Inv.grow {s : St} (i : Inv s) {n q : Nat} (hn : s.limit < n) (hq : s.heap q = none) (cp : Bool) :
    Inv (grow s n q cp) := by
  rcases i.own with ⟨hm, hl⟩ | ⟨p, b, o⟩
  · rw [grow_none hm]
    exact ⟨Or.inr ⟨q, _, ⟨rfl, set_same _ _ _, by simp, rfl, by show 0 < n; omega⟩⟩, i.ok, i.as⟩
  · rw [grow_some o n q hq hn cp i.ok i.as]
    have hne : q ≠ p := by
      intro e; have := o.blk; rw [← e, hq] at this; cases this
    refine ⟨Or.inr ⟨q, _, ⟨rfl, (set_ne _ _ hne).trans (set_same _ _ _), ?_, rfl, by show 0 < n; omega⟩⟩, i.ok, i.as⟩
    have := o.len
    cases cp
    · simp
    · simp [this]
      omega

theorem Inv.zero {s : St} (i : Inv s) {n : Nat} (hn : n ≤ s.limit) : Inv (zero s n) := by
  rcases i.own with ⟨hm, hl⟩ | ⟨p, b, o⟩
  · have : Realloc.zero s n = s := by
      unfold Realloc.zero
      rw [hm]
      have h0 : decide (n < s.limit) = false := by simp; omega
      obtain ⟨m, l, h, bd, bg⟩ := s
      simp_all
    rw [this]; exact i
  · rw [zero_some o n i.ok]
    refine ⟨Or.inr ⟨p, _, ⟨o.ptr, set_same _ _ _, ?_, o.vm, o.pos⟩⟩, i.ok, i.as⟩
    have := o.len
    simp [this]; omega

theorem Inv.step {s t : St} (i : Inv s) (h : Step s t) : Inv t := by
  obtain ⟨o, hc, rfl⟩ := h
  cases o with
  | realloc size count q cp =>
    obtain ⟨hz, hq⟩ := hc
    show Inv (realloc s size count q cp).1
    unfold realloc
    simp only []
    split
    · split
      · rename_i hn
        cases q with
        | none => exact i
        | some q => exact i.grow hn (hq q rfl) cp
      · rename_i hn
        cases cp
        · exact i
        · exact i.zero (by omega)
    · rename_i h0
      have h0 : size = 0 ∧ count = 0 := by
        by_cases e : size = 0
        · exact ⟨e, hz.1 e⟩
        · exact absurd ⟨e, fun e' => e (hz.2 e')⟩ h0
      rw [if_pos h0]
      rcases i.own with ⟨hm, hl⟩ | ⟨p, b, o⟩
      · rw [hm]; simp only []; rw [if_pos hl]; exact i
      · rw [o.ptr]
        simp only []
        have := o.pos
        rw [if_pos (by omega), free_some o i.ok]
        exact ⟨Or.inl ⟨rfl, rfl⟩, i.ok, i.as⟩
  | write k v =>
    have hk : k < s.limit := hc
    show Inv (write s k v)
    rcases i.own with ⟨_, hl⟩ | ⟨p, b, o⟩
    · omega
    · have e : write s k v = { s with heap := set s.heap p (some { b with data := b.data.set k v }) } := by
        unfold write
        rw [o.ptr]
        simp only []
        rw [o.blk]
        have : decide (b.data.length ≤ k) = false := by simp [o.len]; exact hk
        simp [this, i.ok]
      rw [e]
      exact ⟨Or.inr ⟨p, _, ⟨o.ptr, set_same _ _ _, by simpa using o.len, o.vm, o.pos⟩⟩, i.ok, i.as⟩
  | other x c =>
    have hx : s.mem ≠ some x := hc
    show Inv { s with heap := set s.heap x c }
    refine ⟨?_, i.ok, i.as⟩
    rcases i.own with h | ⟨p, b, o⟩
    · exact Or.inl h
    · refine Or.inr ⟨p, b, ⟨o.ptr, ?_, o.len, o.vm, o.pos⟩⟩
      have : p ≠ x := by intro e; exact hx (e ▸ o.ptr)
      exact (set_ne _ _ this).trans o.blk

theorem Inv.reach {s : St} (h : Reach Init Step s) : Inv s :=
  Reach.inv (P := Inv) (fun _ h => Inv.init h) (fun _ _ i h => i.step h) s h

end Verif.Realloc
