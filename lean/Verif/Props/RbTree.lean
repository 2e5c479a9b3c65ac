import Verif.Lemma.RbInv

/-! # C43: the ordered tree finds a key if and only if it was inserted and not removed -/

namespace Verif.RbTree

/-- A use of the structure: insertion or removal of a node. -/
inductive Op
  | ins (n : Nat)
  | del (n : Nat)
deriving DecidableEq

/-- The nodes that were inserted and not removed. -/
def stored (S : List Nat) : List Op → List Nat
  | [] => S
  | .ins n :: ops => stored (n :: S) ops
  | .del n :: ops => stored (S.erase n) ops

/-- Nodes are inserted when they are out and removed when they are in. -/
def Allowed (S : List Nat) : List Op → Prop
  | [] => True
  | .ins n :: ops => n ∉ S ∧ Allowed (n :: S) ops
  | .del n :: ops => n ∈ S ∧ Allowed (S.erase n) ops

/-- Executing the operations one after the other. -/
def run (fuel : Nat) (h : Heap) : List Op → Option Heap
  | [] => some h
  | .ins n :: ops => (insert fuel h n).bind fun h => run fuel h ops
  | .del n :: ops => (remove fuel h n).bind fun h => run fuel h ops

/-- `tree->find` that takes the node in the tree, `ocf_rb_tree_list_find_first`. -/
def first (z : Nat) (_ : List Nat) : Option Nat := some z

theorem init_inv (h : Heap) : Inv (init h).key (init h) [] := by
  refine ⟨List.nodup_nil, .leaf, ⟨⟨⟨none, none, ⟨rfl, rfl⟩, rfl⟩, List.nodup_nil⟩,
    ⟨0, trivial, rfl, by simp [rootRed]⟩, List.Pairwise.nil, ?_, ?_, ?_⟩, ?_⟩ <;>
    simp [T.toList, Holds]

theorem run_inv : ∀ (ops : List Op) {h S fuel}, Inv h.key h S → Allowed S ops →
    S.length + ops.length + 3 ≤ fuel →
    ∃ h', run fuel h ops = some h' ∧ Inv h'.key h' (stored S ops) ∧ h'.key = h.key
  | [], h, S, fuel, hi, _, _ => ⟨h, rfl, hi, rfl⟩
  | .ins n :: ops, h, S, fuel, hi, ha, hf => by
    simp only [List.length_cons] at hf
    obtain ⟨h1, e1, i1, k1⟩ := insert_inv hi ha.1 (by omega : S.length + 1 ≤ fuel)
    obtain ⟨h2, e2, i2, k2⟩ := run_inv ops (fuel := fuel) i1 ha.2 (by simp only [List.length_cons]; omega)
    exact ⟨h2, by simp [run, e1, e2], i2, k2.trans k1⟩
  | .del n :: ops, h, S, fuel, hi, ha, hf => by
    simp only [List.length_cons] at hf
    obtain ⟨h1, e1, i1, k1⟩ := remove_inv hi ha.1 (by omega : S.length + 3 ≤ fuel)
    have hl : (S.erase n).length ≤ S.length := (List.erase_sublist).length_le
    obtain ⟨h2, e2, i2, k2⟩ := run_inv ops (fuel := fuel) (k1.symm ▸ i1) ha.2 (by omega)
    exact ⟨h2, by simp [run, e1, e2], i2, k2.trans k1⟩

theorem stored_len : ∀ (ops : List Op) (S : List Nat), (stored S ops).length ≤ S.length + ops.length := by
  intro ops
  induction ops with
  | nil => intro S; simp [stored]
  | cons o ops ih =>
    intro S
    cases o with
    | ins n => have := ih (n :: S); simp [stored] at this ⊢; omega
    | del n =>
      have := ih (S.erase n)
      have hl : (S.erase n).length ≤ S.length := (List.erase_sublist).length_le
      simp [stored] at this ⊢; omega

/-- Whatever nodes with whatever keys are inserted and removed in whatever order: no null pointer
is followed, every loop ends, and afterwards a search for a key finds a node if and only if a node
with the key was inserted and not removed, and then finds such a node. -/
theorem find_iff (h : Heap) (ops : List Op) (ha : Allowed [] ops) (fuel : Nat)
    (hf : ops.length + 3 ≤ fuel) :
    ∃ h', run fuel (init h) ops = some h' ∧ ∀ K, ∃ r, find fuel h' first K = some r ∧
      (r.isSome ↔ ∃ z ∈ stored [] ops, h.key z = K) ∧
      (∀ z, r = some z → z ∈ stored [] ops ∧ h.key z = K) := by
  obtain ⟨h', e, hi, hk⟩ := run_inv ops (init_inv h) ha (by simpa using hf)
  have hk' : h'.key = h.key := hk
  refine ⟨h', e, fun K => ?_⟩
  have hl : (stored [] ops).length < fuel := by
    have := stored_len ops []
    simp at this; omega
  rcases find_inv (K := K) first hi hl with ⟨z, ds, h1, h2, h3, h4, h5⟩ | ⟨h1, h2⟩
  · rw [hk'] at h2
    refine ⟨some z, by rw [h5]; simp [first], ⟨fun _ => ⟨z, h1, h2⟩, fun _ => rfl⟩, ?_⟩
    rintro w ⟨⟩; exact ⟨h1, h2⟩
  · rw [hk'] at h1
    refine ⟨none, h2, ⟨by simp, ?_⟩, by simp⟩
    rintro ⟨z, hz, e⟩; exact absurd e (h1 z hz)

/-- When several stored nodes have the key that is searched for, the choice is left to
`tree->find`, and what it can choose from is exactly these nodes, each once. -/
theorem find_ring (h : Heap) (ops : List Op) (ha : Allowed [] ops) (fuel : Nat)
    (hf : ops.length + 3 ≤ fuel) (pick : Nat → List Nat → Option Nat) (K : Nat)
    (hex : ∃ z ∈ stored [] ops, h.key z = K) :
    ∃ h' z ds, run fuel (init h) ops = some h' ∧
      find fuel h' pick K = some (if ds = [] then some z else pick z ds) ∧
      (z :: ds).Nodup ∧ ∀ d, d ∈ z :: ds ↔ d ∈ stored [] ops ∧ h.key d = K := by
  obtain ⟨h', e, hi, hk⟩ := run_inv ops (init_inv h) ha (by simpa using hf)
  have hk' : h'.key = h.key := hk
  obtain ⟨h'', e', hfind⟩ := find_iff h ops ha fuel hf
  rw [e] at e'
  cases e'
  -- enough rounds: the search with `first` ends, and it makes the same rounds
  have hl : (stored [] ops).length < fuel := by
    have := stored_len ops []
    simp at this; omega
  rcases find_inv (K := K) pick hi hl with ⟨z, ds, h1, h2, h3, h4, h5⟩ | ⟨h1, h2⟩
  · rw [hk'] at h3
    exact ⟨h', z, ds, e, h5, h4, h3⟩
  · rw [hk'] at h1
    obtain ⟨z, hz, e⟩ := hex
    exact absurd e (h1 z hz)

/-- A search looks at no more than `2 * log2 (n + 1)` nodes when `n` nodes are stored: this many
rounds (and one to notice the end) give the result. -/
theorem find_log (h : Heap) (ops : List Op) (ha : Allowed [] ops) (fuel : Nat)
    (hf : ops.length + 3 ≤ fuel) (pick : Nat → List Nat → Option Nat) (K : Nat) :
    ∃ h', run fuel (init h) ops = some h' ∧
      ∀ rounds, 2 * Nat.log2 ((stored [] ops).length + 1) < rounds →
        find rounds h' pick K = find fuel h' pick K ∧ find rounds h' pick K ≠ none := by
  obtain ⟨h', e, hi, hk⟩ := run_inv ops (init_inv h) ha (by simpa using hf)
  refine ⟨h', e, fun rounds hr => ?_⟩
  obtain ⟨hnd, t, ht, hs⟩ := hi
  have hlen := tree_len hnd ht hs
  have hh := Good_height ht.good
  have hlog : Nat.log2 (t.toList.length + 1) ≤ Nat.log2 ((stored [] ops).length + 1) := by
    rw [Nat.le_log2 (by omega)]
    have := Nat.log2_self_le (n := t.toList.length + 1) (by omega)
    omega
  have hl : t.toList.length < fuel := by
    have := stored_len ops []
    simp at this; omega
  have hroot := ht.rep.root
  obtain ⟨v, hv⟩ : ∃ v, findLoop fuel h' K (rootp t) = some v := by
    rcases findLoop_spec (K := K) (fuel := fuel) ht.rep ht.sorted hl with ⟨z, _, _, h2⟩ | ⟨_, h2⟩
    · exact ⟨_, h2⟩
    · exact ⟨_, h2⟩
  have hv2 := findLoop_height (fuel := rounds) ht.rep (by omega) hv
  rw [← hroot] at hv hv2
  refine ⟨by simp only [find, hv, hv2], ?_⟩
  simp only [find, hv2]
  cases v with
  | none => simp
  | some z => simp only; split <;> simp

/-! ## Changing a key in place -/

/-- When `ocf_rb_tree_can_update` agrees to a key that is not smaller, the key of the stored node
may be changed in place: the structure is as if the node had been removed and inserted with the new
key, i.e. further insertions, removals and searches are right. -/
theorem update_in_place {h : Heap} {S : List Nat} {n K fuel : Nat} (hi : Inv h.key h S) (hn : n ∈ S)
    (hK : h.key n ≤ K) (hf : S.length + 3 ≤ fuel) (hc : canUpdate fuel h n K = some true)
    (ops : List Op) (ha : Allowed S ops) (fuel' : Nat) (hf' : S.length + ops.length + 3 ≤ fuel') :
    ∃ h', run fuel' { h with key := upd h.key n K } ops = some h' ∧
      Inv h'.key h' (stored S ops) ∧ h'.key = upd h.key n K := by
  have h1 := canUpdate_inv hi hn hK (by omega) hc
  exact run_inv ops (h := { h with key := upd h.key n K }) h1 ha hf'

/-- Two nodes with keys 5 and 10. -/
def two : Heap where
  root := some 1
  left := fun _ => none
  right := fun x => if x = 1 then some 2 else none
  parent := fun x => if x = 2 then some 1 else none
  red := fun x => x = 2
  key := fun x => if x = 1 then 5 else 10
  dups := fun _ => []
  head := fun _ => none

/-- For a smaller key this is not so: `ocf_rb_tree_can_update` goes right on an equal key and looks
at the predecessor in the left subtree only.  It agrees to change the key 10 to the key 5 of
another node; then two nodes of the tree have the same key and are not in one ring, so that
`tree->find` is not asked and the second is not found. -/
theorem decrease_splits_equal :
    Inv two.key two [2, 1] ∧ canUpdate 10 two 2 5 = some true ∧
    find 10 { two with key := upd two.key 2 5 } (fun z ds => (z :: ds).getLast?) 5 = some (some 1) := by
  refine ⟨⟨by decide, .node false .leaf 1 (.node true .leaf 2 .leaf), ⟨⟨⟨some 1, none, ⟨rfl, rfl⟩, ?_⟩, ?_⟩,
    ⟨1, trivial, ?_, by simp [rootRed]⟩, ?_, ?_, ?_, ?_⟩, ?_⟩, by decide +kernel, by decide +kernel⟩
  · simp [Repr, two]
  · decide
  · simp [RB, rootRed]
  · simp [T.toList, two]
  · simp [two]
  · simp [two]
  · simp [two]
  · intro z; simp [Holds, T.toList, two]; omega

/-! ## Examples -/

/-- A heap whose nodes have the keys 0, 7, 14, ..., reduced modulo 11. -/
def keys7 : Heap where
  root := none
  left := fun _ => none
  right := fun _ => none
  parent := fun _ => none
  red := fun _ => false
  key := fun x => x * 7 % 11
  dups := fun _ => []
  head := fun _ => none

/-- Insertions and removals with equal keys, rotations on both sides and a removal of the root. -/
def history : List Op :=
  (List.range 14).map .ins ++ [.del 3, .del 0, .del 12, .del 7, .del 5, .del 1, .ins 3, .del 9]

theorem history_allowed : Allowed [] history := by simp [history, Allowed, List.range_succ]

example : ∃ h', run 40 (init keys7) history = some h' ∧
    ∀ K, ∃ r, find 40 h' first K = some r ∧
      (r.isSome ↔ ∃ z ∈ stored [] history, keys7.key z = K) ∧
      (∀ z, r = some z → z ∈ stored [] history ∧ keys7.key z = K) :=
  find_iff keys7 history history_allowed 40 (by decide)

/-- In this history key 3 (nodes 2 and 13) is found, key 0 (nodes 0 and 11, the first of which was
removed) too, key 7 (nodes 1 and 12, both removed) is not. -/
theorem example_run : ∃ h', run 40 (init keys7) history = some h' ∧
    find 40 h' first 3 = some (some 2) ∧ find 40 h' first 0 = some (some 11) ∧
    find 40 h' first 7 = some none := by
  have : ∀ h?, h? = run 40 (init keys7) history →
      (h?.map fun h' => (find 40 h' first 3, find 40 h' first 0, find 40 h' first 7)) =
        some (some (some 2), some (some 11), some none) := by
    intro h? e
    rw [e]; decide +kernel
  have h1 := this _ rfl
  cases hr : run 40 (init keys7) history with
  | none => rw [hr] at h1; cases h1
  | some h' =>
    rw [hr] at h1
    simp only [Option.map_some, Option.some.injEq, Prod.mk.injEq] at h1
    exact ⟨h', rfl, h1⟩

end Verif.RbTree
