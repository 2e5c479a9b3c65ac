import Verif.Lemma.Collision

/-!
Lookup of a core line is exact (C04).
-/

namespace Verif.Collision

/-! ## Specification: a finite partial one-to-one mapping -/

/-- What a user of the mapping knows: which cache line holds a core line. -/
abbrev Mapping := Key → Option Nat

/-- The two ways in which the mapping changes. -/
inductive Op where
  | insert (k : Key) (c : Nat)
  | erase (c : Nat)

/-- `M` changes to `M'`. A core line is inserted only after a lookup has missed it, into a cache
line that holds nothing; only a cache line holding something is erased. -/
inductive Change (lines : Nat) : Mapping → Op → Mapping → Prop
  | insert (M M' : Mapping) (k : Key) (c : Nat) (hc : c < lines) (hk : k.1 < 4096)
      (hmiss : M k = none) (hfree : ∀ k', M k' ≠ some c)
      (hM : M' k = some c) (hother : ∀ k', k' ≠ k → M' k' = M k') :
      Change lines M (.insert k c) M'
  | erase (M M' : Mapping) (k : Key) (c : Nat) (hheld : M k = some c)
      (hM : M' k = none) (hother : ∀ k', k' ≠ k → M' k' = M k') :
      Change lines M (.erase c) M'

/-- What the code does. -/
def apply (t : Table) : Op → Table
  | .insert k c => map t k c
  | .erase c => remove t c

/-- The code and the mapping run side by side from the empty table. -/
inductive Run (lines buckets : Nat) : Table → Mapping → Prop
  | init : Run lines buckets (init lines buckets) (fun _ => none)
  | step (t : Table) (M : Mapping) (op : Op) (M' : Mapping) (h : Run lines buckets t M)
      (hc : Change lines M op M') : Run lines buckets (apply t op) M'

/-! ## Theorems -/

theorem run_rep {N H : Nat} (h0 : 0 < H) {t : Table} {M : Mapping} (h : Run N H t M) :
    t.lines = N ∧ t.buckets = H ∧ ∃ q, Rep t M q := by
  induction h with
  | init => exact ⟨rfl, rfl, _, rep_init N H h0⟩
  | step t M op M' h hc ih =>
    obtain ⟨hN, hH, q, r⟩ := ih
    cases hc with
    | insert _ k c hc hk hmiss hfree hM hother =>
      have hr := rep_map r (hN ▸ hc) hk hmiss hfree
      have e : (fun k' => if k' = k then some c else M k') = M' := by
        funext k'
        by_cases e : k' = k
        · rw [if_pos e, e, hM]
        · rw [if_neg e, hother k' e]
      rw [e] at hr
      refine ⟨?_, ?_, _, hr⟩
      · show (map t k c).lines = N
        unfold map add; split <;> exact hN
      · show (map t k c).buckets = H
        unfold map add; split <;> exact hH
    | erase _ k c hheld hM hother =>
      have hr := rep_remove r hheld
      have e : (fun k' => if k' = k then none else M k') = M' := by
        funext k'
        by_cases e : k' = k
        · rw [if_pos e, e, hM]
        · rw [if_neg e, hother k' e]
      rw [e] at hr
      refine ⟨?_, ?_, _, hr⟩
      · show (remove t c).lines = N
        unfold remove; dsimp only; split
        · exact hN
        · split <;> exact hN
      · show (remove t c).buckets = H
        unfold remove; dsimp only; split
        · exact hH
        · split <;> exact hH

/-- C04. For every number of lines and of buckets and every history of insertions and removals,
the lookup ends after at most `lines + 1` rounds and finds exactly the cache line holding the
core line, or a miss when there is none. -/
theorem lookup_exact {N H : Nat} (h0 : 0 < H) {t : Table} {M : Mapping} (h : Run N H t M)
    (k : Key) (n : Nat) (hn : N < n) : lookup t k n = some (M k) := by
  obtain ⟨hN, hH, q, r⟩ := run_rep h0 h
  have hh := hash_lt t k r.pos
  have hl := r.length hh
  unfold lookup
  rw [walk_chain (r.chain _ hh) (fun x hx => r.own hh hx) (by omega), r.find k]

/-- C04. Two core lines never share a cache line, and a line found is in range and belongs to a
core with a legal id. -/
theorem lookup_injective {N H : Nat} (h0 : 0 < H) {t : Table} {M : Mapping} (h : Run N H t M)
    (k k' : Key) (c n : Nat) (hn : N < n) (hk : lookup t k n = some (some c))
    (hk' : lookup t k' n = some (some c)) : k = k' ∧ c < N ∧ k.1 < 4096 := by
  rw [lookup_exact h0 h k n hn] at hk
  rw [lookup_exact h0 h k' n hn] at hk'
  obtain ⟨hN, hH, q, r⟩ := run_rep h0 h
  cases hM : M k with
  | none => rw [hM] at hk; simp at hk
  | some x =>
    rw [hM] at hk; simp at hk; subst hk
    cases hM' : M k' with
    | none => rw [hM'] at hk'; simp at hk'
    | some y =>
      rw [hM'] at hk'; simp at hk'; subst hk'
      exact ⟨(r.core _ _ hM).2.symm.trans (r.core _ _ hM').2, hN ▸ (r.core _ _ hM).1,
        r.valid _ _ hM⟩

/-- C04. No assertion of the insertion or removal fails. -/
theorem no_assert {N H : Nat} (h0 : 0 < H) {t : Table} {M : Mapping} (h : Run N H t M) :
    t.bug = false := by
  obtain ⟨_, _, q, r⟩ := run_rep h0 h
  exact r.bug

/-- C04. The core recorded for a cache line is the one whose lookup finds it; a cache line found
by no lookup is recorded as holding nothing. -/
theorem core_exact {N H : Nat} (h0 : 0 < H) {t : Table} {M : Mapping} (h : Run N H t M)
    (c : Nat) (hc : c < N) :
    (∀ k, M k = some c → t.core c = k) ∧ ((∀ k, M k ≠ some c) → t.core c = (4096, 2 ^ 64 - 1)) := by
  obtain ⟨hN, _, q, r⟩ := run_rep h0 h
  exact ⟨fun k hk => (r.core k c hk).2, fun hf => r.free c (hN ▸ hc) (hf _)⟩

/-- C04. Re-checking an earlier lookup, after any further changes, accepts a hit exactly when the
core line is still held by the same cache line. -/
theorem check_exact {N H : Nat} (h0 : 0 < H) {t : Table} {M : Mapping} (h : Run N H t M)
    (k : Key) (c : Nat) (hc : c < N) (hk : k.1 < 4096) :
    (check t k (some c) = true ↔ M k = some c) ∧ check t k none = true := by
  refine ⟨?_, rfl⟩
  obtain ⟨hN, _, q, r⟩ := run_rep h0 h
  have : (k.1 = (t.core c).1 ∧ (t.core c).2 = k.2) ↔ t.core c = k := by
    rw [Prod.ext_iff]; constructor <;> rintro ⟨a, b⟩ <;> exact ⟨a.symm, b⟩
  simp only [check, decide_eq_true_eq, this]
  constructor
  · intro e
    by_cases hM : M (t.core c) = some c
    · rw [← e]; exact hM
    · have := r.free c (hN ▸ hc) hM
      rw [← e, this] at hk
      simp [noCore, coreMax] at hk
  · intro hM; exact (r.core k c hM).2

/-- The core line an operation concerns. -/
def Op.key (t : Table) : Op → Key
  | .insert k _ => k
  | .erase c => t.core c

/-- C04. An operation touches one bucket only: the head of every other bucket, and all pointers
and core information of the lines held in other buckets, stay as they were. This is what makes it
safe to run operations on different buckets, under different bucket locks, at the same time. -/
theorem bucket_frame {N H : Nat} (h0 : 0 < H) {t : Table} {M M' : Mapping} {op : Op}
    (h : Run N H t M) (hc : Change N M op M') :
    (∀ b, b ≠ hashFunc t (op.key t) → (apply t op).hash b = t.hash b) ∧
    ∀ k c, M k = some c → hashFunc t k ≠ hashFunc t (op.key t) →
      (apply t op).next c = t.next c ∧ (apply t op).prev c = t.prev c ∧
      (apply t op).core c = t.core c := by
  obtain ⟨hN, hH, q, r⟩ := run_rep h0 h
  cases hc with
  | insert _ k c hc hk hmiss hfree hM hother =>
    have hh := hash_lt t k r.pos
    have hold := (r.chain _ hh).head
    simp only [apply, map, add, Op.key]
    rw [if_neg (by simp [hh]; omega)]
    refine ⟨fun b hb => upd_ne hb, ?_⟩
    intro k' x hx hne
    have hxc : x ≠ c := fun e => hfree k' (e ▸ hx)
    refine ⟨upd_ne hxc, ?_, upd_ne hxc⟩
    dsimp only
    split
    · rename_i hne'
      have : x ≠ t.hash (hashFunc t k) := by
        intro e
        rw [hold] at e hne'
        cases hq : q (hashFunc t k) with
        | nil => rw [hq] at hne'; simp at hne'
        | cons y b =>
          rw [hq] at e; simp at e
          have hy := ((r.mem _ hh y).1 (by rw [hq]; simp)).2.1
          rw [← e, (r.core _ _ hx).2] at hy
          exact hne hy
      rw [upd_ne this, upd_ne hxc]
    · exact upd_ne hxc
  | erase _ k c hheld hM hother =>
    obtain ⟨hcl, hk⟩ := r.core _ _ hheld
    have hh := hash_lt t k r.pos
    have hcm : c ∈ q (hashFunc t k) := (r.mem _ hh c).2 ⟨hcl, by rw [hk], by rw [hk]; exact hheld⟩
    obtain ⟨a, b, hab⟩ := List.append_of_mem hcm
    have hch := r.chain _ hh
    rw [hab] at hch
    have hsp := Chain.split hch
    simp only [apply, remove, Op.key, hk]
    rw [if_neg (by simp [hcl]), if_neg (by simp [hh])]
    refine ⟨?_, ?_⟩
    · intro b hb
      dsimp only
      split
      · exact upd_ne hb
      · rfl
    intro k' x hx hne
    obtain ⟨hxl, hxk⟩ := r.core _ _ hx
    have hxq : x ∉ q (hashFunc t k) := fun hm => hne (by
      have := ((r.mem _ hh x).1 hm).2.1; rw [hxk] at this; exact this)
    have hxc : x ≠ c := fun e => hxq (e ▸ hcm)
    dsimp only
    refine ⟨?_, ?_, upd_ne hxc⟩
    · rw [upd_ne hxc]
      split
      · refine upd_ne (fun e => ?_)
        rw [hsp.1] at e
        cases a with
        | nil => simp at e; omega
        | cons y a =>
          rw [List.getLast_cons (by simp)] at e
          exact hxq (by rw [hab, e]; exact List.mem_append_left _ (List.getLast_mem _))
      · rfl
    · rw [upd_ne hxc]
      split
      · refine upd_ne (fun e => ?_)
        rw [hsp.2.head] at e
        cases b with
        | nil => simp at e; omega
        | cons y b => simp at e; exact hxq (by rw [hab, e]; simp)
      · rfl

/-! ## A concrete history: three colliding core lines, the middle one removed -/

/-- Three core lines in one of two buckets, of cores 0 and 7. -/
def m3 : Mapping := fun k =>
  if k = (0, 5) then some 4 else if k = (7, 3) then some 0 else if k = (0, 1) then some 2 else none

/-- The same after the line holding core line 3 of core 7 was removed. -/
def m2 : Mapping := fun k =>
  if k = (7, 3) then none else m3 k

theorem m2_run : ∃ t, Run 6 2 t m2 ∧ lookup t (0, 5) 7 = some (some 4) ∧
    lookup t (7, 3) 7 = some none ∧ lookup t (0, 1) 7 = some (some 2) := by
  let m1 : Mapping := fun k => if k = (0, 1) then some 2 else none
  let m1' : Mapping := fun k => if k = (7, 3) then some 0 else m1 k
  have r1 : Run 6 2 _ m1 := .step _ _ (.insert (0, 1) 2) _ .init
    (.insert _ _ _ _ (by decide) (by decide) rfl (by simp) rfl (fun k h => if_neg h))
  have r2 : Run 6 2 _ m1' := .step _ _ (.insert (7, 3) 0) _ r1
    (.insert _ _ _ _ (by decide) (by decide) rfl
      (by intro k; show (if _ then _ else _) ≠ _; split <;> simp) rfl
      (fun k h => if_neg h))
  have r3 : Run 6 2 _ m3 := .step _ _ (.insert (0, 5) 4) _ r2
    (.insert _ _ _ _ (by decide) (by decide) rfl
      (by
        intro k
        show (if _ then _ else (if _ then _ else _)) ≠ _
        split
        · simp
        · split <;> simp) rfl
      (fun k h => if_neg h))
  have r4 : Run 6 2 _ m2 := .step _ _ (.erase 0) _ r3
    (.erase _ _ (7, 3) 0 rfl rfl (fun k h => if_neg h))
  exact ⟨_, r4, by decide +kernel, by decide +kernel, by decide +kernel⟩

/-- The three keys above do share a bucket. -/
example : hashFunc (init 6 2) (0, 5) = hashFunc (init 6 2) (7, 3) ∧
    hashFunc (init 6 2) (0, 1) = hashFunc (init 6 2) (7, 3) := by decide +kernel

/-- `check_exact` at work: a hit on the removed line is refused, the others are kept. -/
example : ∃ t, Run 6 2 t m2 ∧ check t (7, 3) (some 0) = false ∧
    check t (0, 5) (some 4) = true := by
  obtain ⟨t, h, _⟩ := m2_run
  refine ⟨t, h, ?_, (check_exact (by decide) h _ _ (by decide) (by decide)).1.2 rfl⟩
  have := (check_exact (by decide) h (7, 3) 0 (by decide) (by decide)).1
  cases hc : check t (7, 3) (some 0) with
  | false => rfl
  | true => exact absurd (this.1 hc) (by decide)

end Verif.Collision
