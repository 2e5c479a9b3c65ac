import Verif.Lemma.IdxList

/-!
The index list container behaves as a sequence (C37).
-/

namespace Verif.IdxList

/-! ## Specification -/

/-- The operations of the container. -/
inductive Op where
  | add (x : Nat)
  | addTail (x : Nat)
  | addBefore (at_ x : Nat)
  | addAfter (at_ x : Nat)
  | del (x : Nat)
  | sort (cmp : Nat → Nat → Int)

/-- A comparison function is consistent when "not greater" is a total preorder and the two
argument orders agree. -/
structure Consistent (cmp : Nat → Nat → Int) : Prop where
  anti : ∀ a b, 0 < cmp a b ↔ cmp b a < 0
  trans : ∀ a b c, cmp a b ≤ 0 → cmp b c ≤ 0 → cmp a c ≤ 0

/-- What each operation does to the sequence of entries. Entries are added only when not in the
list. -/
inductive SeqStep (n : Nat) : List Nat → Op → List Nat → Prop
  | add (xs : List Nat) (x : Nat) (hx : x < n) (hn : x ∉ xs) : SeqStep n xs (.add x) (x :: xs)
  | addTail (xs : List Nat) (x : Nat) (hx : x < n) (hn : x ∉ xs) :
      SeqStep n xs (.addTail x) (xs ++ [x])
  | addBefore (l1 l2 : List Nat) (a x : Nat) (hx : x < n) (hn : x ∉ l1 ++ a :: l2) :
      SeqStep n (l1 ++ a :: l2) (.addBefore a x) (l1 ++ x :: a :: l2)
  | addAfter (l1 l2 : List Nat) (a x : Nat) (hx : x < n) (hn : x ∉ l1 ++ a :: l2) :
      SeqStep n (l1 ++ a :: l2) (.addAfter a x) (l1 ++ a :: x :: l2)
  | del (l1 l2 : List Nat) (x : Nat) : SeqStep n (l1 ++ x :: l2) (.del x) (l1 ++ l2)
  | sort (xs ys : List Nat) (cmp : Nat → Nat → Int) (perm : ys.Perm xs)
      (order : Consistent cmp → ys.Pairwise (fun a b => cmp a b ≤ 0))
      (stable : Consistent cmp → ∀ a, ys.filter (fun b => cmp a b = 0) =
        xs.filter (fun b => cmp a b = 0)) :
      SeqStep n xs (.sort cmp) ys

/-- An operation is allowed on a sequence. -/
def Allowed (n : Nat) (xs : List Nat) : Op → Prop
  | .add x => x < n ∧ x ∉ xs
  | .addTail x => x < n ∧ x ∉ xs
  | .addBefore a x => a ∈ xs ∧ x < n ∧ x ∉ xs
  | .addAfter a x => a ∈ xs ∧ x < n ∧ x ∉ xs
  | .del x => x ∈ xs
  | .sort _ => True

/-- What the code does. -/
def apply (l : Lst) : Op → Lst
  | .add x => l.add x
  | .addTail x => l.addTail x
  | .addBefore a x => l.addBefore a x
  | .addAfter a x => l.addAfter a x
  | .del x => l.del x
  | .sort cmp => l.sort cmp

/-- The container after a history of operations, each allowed on the sequence the container is
specified to hold. -/
inductive Run (n : Nat) : Lst → List Nat → Prop
  | init : Run n (init n) []
  | step (l : Lst) (xs : List Nat) (op : Op) (ys : List Nat) (h : Run n l xs)
      (hs : SeqStep n xs op ys) (he : (apply l op).toList (n + 1) = some ys) :
      Run n (apply l op) ys

/-! ## The sort on sequences -/

theorem insertBy_pairwise {cmp : Nat → Nat → Int} (hc : Consistent cmp) (x : Nat) :
    ∀ ys : List Nat, ys.Pairwise (fun a b => cmp a b ≤ 0) →
      (insertBy cmp x ys).Pairwise (fun a b => cmp a b ≤ 0)
  | [], _ => by simp [insertBy]
  | y :: ys, h => by
    rw [List.pairwise_cons] at h
    unfold insertBy
    split
    · rename_i hg
      have hxy : cmp x y ≤ 0 := Int.le_of_lt ((hc.anti y x).1 hg)
      refine List.pairwise_cons.2 ⟨?_, List.pairwise_cons.2 h⟩
      intro b hb
      rcases List.mem_cons.1 hb with rfl | hb
      · exact hxy
      · exact hc.trans x y b hxy (h.1 b hb)
    · rename_i hg
      refine List.pairwise_cons.2 ⟨?_, insertBy_pairwise hc x ys h.2⟩
      intro b hb
      rcases List.mem_cons.1 ((insertBy_perm cmp x ys).mem_iff.1 hb) with rfl | hb
      · omega
      · exact h.1 b hb

/-- Insertion puts the new element after all equal ones. -/
theorem insertBy_filter {cmp : Nat → Nat → Int} (hc : Consistent cmp) (x a : Nat) :
    ∀ ys : List Nat, ys.Pairwise (fun a b => cmp a b ≤ 0) →
      (insertBy cmp x ys).filter (fun b => cmp a b = 0) =
        ys.filter (fun b => cmp a b = 0) ++ [x].filter (fun b => cmp a b = 0)
  | [], _ => by simp [insertBy]
  | y :: ys, h => by
    rw [List.pairwise_cons] at h
    unfold insertBy
    split
    · rename_i hg
      by_cases hx : cmp a x = 0
      · -- nothing from `y` on can be equal to `a`
        have hno : ∀ b ∈ y :: ys, ¬ cmp a b = 0 := by
          intro b hb e
          have hyb : cmp y b ≤ 0 := by
            rcases List.mem_cons.1 hb with rfl | hb
            · have := hc.anti b b; omega
            · exact h.1 b hb
          have hba : cmp b a ≤ 0 := by have := hc.anti b a; omega
          have h1 := hc.trans y b a hyb hba
          have h2 := hc.trans y a x h1 (by omega)
          omega
        have : (y :: ys).filter (fun b => cmp a b = 0) = [] := by
          rw [List.filter_eq_nil_iff]; intro b hb; simpa using hno b hb
        rw [this, List.filter_cons]
        simp [hx, this]
      · rw [List.filter_cons]
        simp [hx]
    · have ih := insertBy_filter hc x a ys h.2
      simp only [List.filter_cons, ih]
      split <;> simp

theorem foldl_sorted {cmp : Nat → Nat → Int} (hc : Consistent cmp) :
    ∀ (zs ys : List Nat), ys.Pairwise (fun a b => cmp a b ≤ 0) →
      (zs.foldl (fun ys x => insertBy cmp x ys) ys).Pairwise (fun a b => cmp a b ≤ 0) ∧
      ∀ a, (zs.foldl (fun ys x => insertBy cmp x ys) ys).filter (fun b => cmp a b = 0) =
        ys.filter (fun b => cmp a b = 0) ++ zs.filter (fun b => cmp a b = 0)
  | [], ys, h => ⟨h, by simp⟩
  | z :: zs, ys, h => by
    have ih := foldl_sorted hc zs _ (insertBy_pairwise hc z ys h)
    refine ⟨ih.1, fun a => ?_⟩
    rw [List.foldl_cons, ih.2 a, insertBy_filter hc z a ys h, List.append_assoc]
    congr 1
    rw [← List.filter_append, List.singleton_append]

/-! ## Theorems -/

theorem apply_inv (l : Lst) {xs : List Nat} (r : Rep l xs) (op : Op) : (apply l op).inv = l.inv := by
  cases op <;> first | rfl | exact (r.sort _).2

theorem step_ok {l : Lst} {xs : List Nat} (r : Rep l xs) {op : Op} (ha : Allowed l.inv xs op) :
    ∃ ys, SeqStep l.inv xs op ys ∧ Rep (apply l op) ys := by
  cases op with
  | add x => exact ⟨_, .add xs x ha.1 ha.2, r.add ha.1 ha.2⟩
  | addTail x => exact ⟨_, .addTail xs x ha.1 ha.2, r.addTail ha.1 ha.2⟩
  | addBefore a x =>
    obtain ⟨l1, l2, rfl⟩ := List.append_of_mem ha.1
    exact ⟨_, .addBefore l1 l2 a x ha.2.1 ha.2.2, r.addBefore ha.2.1 ha.2.2⟩
  | addAfter a x =>
    obtain ⟨l1, l2, rfl⟩ := List.append_of_mem ha.1
    exact ⟨_, .addAfter l1 l2 a x ha.2.1 ha.2.2, r.addAfter ha.2.1 ha.2.2⟩
  | del x =>
    obtain ⟨l1, l2, rfl⟩ := List.append_of_mem ha
    exact ⟨_, .del l1 l2 x, r.del⟩
  | sort cmp =>
    refine ⟨_, .sort xs (sorted cmp xs) cmp (sorted_perm cmp xs) (fun hc => ?_) (fun hc a => ?_),
      (r.sort cmp).1⟩
    · exact (foldl_sorted hc xs [] List.Pairwise.nil).1
    · simpa [sorted] using (foldl_sorted hc xs [] List.Pairwise.nil).2 a

theorem Rep.toList {l : Lst} {xs : List Nat} (r : Rep l xs) {n : Nat} (hn : l.inv < n) :
    l.toList n = some xs :=
  Path.visit r.path r.lt (by have := length_le r.nodup r.lt; omega)

theorem run_rep {n : Nat} {l : Lst} {xs : List Nat} (h : Run n l xs) : Rep l xs ∧ l.inv = n := by
  induction h with
  | init => exact ⟨rep_init n, rfl⟩
  | step l xs op ys h hs he ih =>
    obtain ⟨r, hi⟩ := ih
    have ha : Allowed l.inv xs op := by
      rw [hi]
      cases hs with
      | add => exact ⟨by assumption, by assumption⟩
      | addTail => exact ⟨by assumption, by assumption⟩
      | addBefore l1 l2 a x hx hn => exact ⟨by simp, hx, hn⟩
      | addAfter l1 l2 a x hx hn => exact ⟨by simp, hx, hn⟩
      | del l1 l2 x => show x ∈ _; simp
      | sort cmp => trivial
    obtain ⟨zs, _, rz⟩ := step_ok r ha
    have hi' := (apply_inv l r op).trans hi
    have := rz.toList (n := n + 1) (by omega)
    rw [he] at this
    cases this
    exact ⟨rz, hi'⟩

/-- C37. After every history and for every operation allowed on the current contents, the code
turns the container into one holding a sequence that the specification allows: for a sort with a
consistent comparison, the sorted stable permutation. -/
theorem op_exact {n : Nat} {l : Lst} {xs : List Nat} (h : Run n l xs) {op : Op}
    (ha : Allowed n xs op) :
    ∃ ys, SeqStep n xs op ys ∧ (apply l op).toList (n + 1) = some ys ∧ Run n (apply l op) ys := by
  obtain ⟨r, hi⟩ := run_rep h
  obtain ⟨ys, hs, r'⟩ := step_ok r (hi ▸ ha)
  have hi' := (apply_inv l r op).trans hi
  have ht := r'.toList (n := n + 1) (by omega)
  exact ⟨ys, hi ▸ hs, ht, .step l xs op ys h (hi ▸ hs) ht⟩

/-- C37. Reading the container: the loop visits exactly the contents, in order, and ends; head,
tail and emptiness are those of the sequence; and no internal check has ever failed. -/
theorem read_exact {n : Nat} {l : Lst} {xs : List Nat} (h : Run n l xs) :
    l.toList (n + 1) = some xs ∧ l.empty = xs.isEmpty ∧ l.head = xs.headD n ∧
    l.tail = xs.getLastD n ∧ xs.Nodup ∧ (∀ x ∈ xs, x < n) ∧
    l.warn = false ∧ l.bug = false ∧ l.hang = false := by
  obtain ⟨r, hi⟩ := run_rep h
  have hc0 := Core.cut_links (l1 := []) (l2 := xs) r.toCore
  have r' : Core l (xs ++ []) := by simpa using r.toCore
  have hc1 := Core.cut_links r'
  refine ⟨r.toList (by omega), ?_, ?_, ?_, r.nodup, fun x hx => hi ▸ r.lt x hx, r.warn, r.bug,
    r.hang⟩
  · unfold Lst.empty
    cases xs with
    | nil => simp [r.path.1]
    | cons x xs =>
      have := r.lt x (by simp)
      simp only [r.path.1, List.isEmpty_cons, decide_eq_false_iff_not]
      omega
  · rw [← hi]; exact hc0.1
  · rw [← hi]
    show l.prev l.inv = _
    rw [show l.prev l.inv = _ from hc1.2, List.getLastD_eq_getLast?]
    cases xs with
    | nil => rfl
    | cons x xs => rw [List.getLast_cons (by simp), List.getLast?_eq_some_getLast (by simp)]; rfl

/-! ## A concrete history -/

/-- Descending comparison, as used for class priorities: `cmp a b = v b - v a` with
`v x = x % 3`. -/
def desc (a b : Nat) : Int := ((b % 3 : Nat) : Int) - ((a % 3 : Nat) : Int)

theorem desc_consistent : Consistent desc :=
  ⟨fun a b => by unfold desc; omega, fun a b c => by unfold desc; omega⟩

/-- Entries 6, 2, 1, 4, 3 are put in, one is taken out, and the rest sorted by descending
remainder; 1 and 4 have equal rank and keep their order. -/
theorem sample_run : ∃ l, Run 7 l [2, 1, 4, 3] := by
  have r1 : Run 7 _ [1] := .step _ _ (.add 1) _ .init (.add _ _ (by decide) (by decide)) (by decide +kernel)
  have r2 : Run 7 _ [1, 3] := .step _ _ (.addTail 3) _ r1 (.addTail _ _ (by decide) (by decide))
    (by decide +kernel)
  have r3 : Run 7 _ [1, 4, 3] := .step _ _ (.addAfter 1 4) _ r2
    (.addAfter [] [3] 1 4 (by decide) (by decide)) (by decide +kernel)
  have r4 : Run 7 _ [1, 6, 4, 3] := .step _ _ (.addBefore 4 6) _ r3
    (.addBefore [1] [3] 4 6 (by decide) (by decide)) (by decide +kernel)
  have r5 : Run 7 _ [1, 6, 4, 3, 2] := .step _ _ (.addTail 2) _ r4
    (.addTail _ _ (by decide) (by decide)) (by decide +kernel)
  have r6 : Run 7 _ [1, 4, 3, 2] := .step _ _ (.del 6) _ r5 (.del [1] [4, 3, 2] 6)
    (by decide +kernel)
  obtain ⟨ys, hs, ht, hr⟩ := op_exact r6 (op := .sort desc) trivial
  have : some ys = some [2, 1, 4, 3] := by rw [← ht]; decide +kernel
  cases this
  exact ⟨_, hr⟩

example : ∃ l, Run 7 l [2, 1, 4, 3] ∧ l.head = 2 ∧ l.tail = 3 := by
  obtain ⟨l, h⟩ := sample_run
  have := read_exact h
  exact ⟨l, h, this.2.2.1, this.2.2.2.1⟩

end Verif.IdxList
