import Verif.Lemma.RbInv

/-! # The ordered tree with keys that were changed behind its back

The red-black tree and the rings stay intact, whatever the keys are, and all operations end. -/

namespace Verif.RbTree

open T Fr

theorem findLoop_free {h K} : ∀ {t k fuel}, Rep h k t → t.toList.length < fuel →
    (∃ z ∈ t.toList, h.key z = K ∧ findLoop fuel h K (rootp t) = some (some z)) ∨
    findLoop fuel h K (rootp t) = some none
  | t, _, 0, _, hf => by omega
  | leaf, _, fuel + 1, _, _ => Or.inr rfl
  | node c l x r, k, fuel + 1, hr, hf => by
    have fx := hr.fields
    simp only [T.toList, List.length_append, List.length_cons] at hf
    simp only [findLoop, rootp_node, fx]
    cases hc : compare K (h.key x) with
    | lt =>
      rcases findLoop_free (K := K) (fuel := fuel) (Rep_left.2 hr) (by omega) with ⟨z, hz, h1, h2⟩ | h2
      · exact Or.inl ⟨z, by simp [T.toList, hz], h1, h2⟩
      · exact Or.inr h2
    | eq => exact Or.inl ⟨x, by simp [T.toList], (Nat.compare_eq_eq.1 hc).symm, rfl⟩
    | gt =>
      rcases findLoop_free (K := K) (fuel := fuel) (Rep_right.2 hr) (by omega) with ⟨z, hz, h1, h2⟩ | h2
      · exact Or.inl ⟨z, by simp [T.toList, hz], h1, h2⟩
      · exact Or.inr h2

theorem find_struct {ρ h S K fuel} (pick : Nat → List Nat → Option Nat) (hi : SInv ρ h S)
    (hf : S.length < fuel) :
    (∃ z ds, z ∈ S ∧ h.key z = K ∧ (∀ d ∈ ds, d ∈ S ∧ ρ d = ρ z) ∧
      find fuel h pick K = some (if ds = [] then some z else pick z ds)) ∨
    find fuel h pick K = some none := by
  obtain ⟨κ, ⟨hnd, t, ht, hs⟩, hρ⟩ := hi
  have hlen := tree_len hnd ht hs
  have hr := ht.rep.root
  rcases findLoop_free (K := K) (fuel := fuel) ht.rep (by omega) with ⟨z, hz, h1, h2⟩ | h2
  · left
    rw [← hr] at h2
    refine ⟨z, h.dups z, (hs z).2 (Or.inl hz), h1, ?_, ?_⟩
    · intro d hd
      have hdS : d ∈ S := (hs d).2 (Or.inr ⟨z, hz, hd⟩)
      exact ⟨hdS, hρ d hdS z ((hs z).2 (Or.inl hz)) (ht.dups z hz d hd).2.1⟩
    · simp only [find, h2, listEmpty, ht.headT z hz, Option.isNone_none, Bool.and_true]
      cases h.dups z with
      | nil => simp
      | cons a b => simp
  · right
    rw [← hr] at h2
    simp [find, h2]

theorem rightmost_free {h} : ∀ {t k fuel c l x r}, t = node c l x r → Rep h k t →
    t.toList.length ≤ fuel → ∃ y, rightmost fuel h x = some y
  | leaf, _, _, _, _, _, _, e, _, _ => by cases e
  | node c l x r, k, 0, _, _, _, _, e, hr, hf => by simp [T.toList] at hf
  | node c l x r, k, fuel + 1, _, _, _, _, e, hr, hf => by
    cases e
    have fx := hr.fields
    cases r with
    | leaf => exact ⟨x, by simp [rightmost, fx, rootp]⟩
    | node d a y b =>
      obtain ⟨z, hz⟩ := rightmost_free (t := node d a y b) (fuel := fuel) rfl (Rep_right.2 hr)
        (by simp [T.toList] at hf ⊢; omega)
      exact ⟨z, by simp only [rightmost, fx, rootp_node]; exact hz⟩

theorem passes_free {h K n} : ∀ {t k fuel}, Rep h k t → t.toList.length < fuel →
    passes fuel h K n (rootp t) = some false ∨
    (passes fuel h K n (rootp t) = some true ∧ ∃ j c l r, t = plug j (node c l n r))
  | t, _, 0, _, hf => by omega
  | leaf, _, fuel + 1, _, _ => Or.inl rfl
  | node c l x r, k, fuel + 1, hr, hf => by
    have fx := hr.fields
    simp only [T.toList, List.length_append, List.length_cons] at hf
    simp only [passes, rootp_node, fx]
    by_cases e : x = n
    · subst e
      exact Or.inr ⟨by simp, [], c, l, r, rfl⟩
    · rw [if_neg e]
      have hL := passes_free (K := K) (n := n) (fuel := fuel) (Rep_left.2 hr) (by omega)
      have hR := passes_free (K := K) (n := n) (fuel := fuel) (Rep_right.2 hr) (by omega)
      cases hc : compare K (h.key x) with
      | lt =>
        rcases hL with h1 | ⟨h1, j, c', l', r', e'⟩
        · exact Or.inl h1
        · exact Or.inr ⟨h1, j ++ [L c x r], c', l', r', by rw [plug_append, ← e']; rfl⟩
      | eq =>
        rcases hR with h1 | ⟨h1, j, c', l', r', e'⟩
        · exact Or.inl h1
        · exact Or.inr ⟨h1, j ++ [R c l x], c', l', r', by rw [plug_append, ← e']; rfl⟩
      | gt =>
        rcases hR with h1 | ⟨h1, j, c', l', r', e'⟩
        · exact Or.inl h1
        · exact Or.inr ⟨h1, j ++ [R c l x], c', l', r', by rw [plug_append, ← e']; rfl⟩

theorem canUpdate_free {ρ h S n K fuel} (hi : SInv ρ h S) (hf : S.length < fuel) :
    ∃ b, canUpdate fuel h n K = some b ∧ (b = true → listEmpty h n = true) := by
  obtain ⟨κ, ⟨hnd, t, ht, hs⟩, _⟩ := hi
  have hlen := tree_len hnd ht hs
  unfold canUpdate
  cases hle : listEmpty h n
  · exact ⟨false, by simp, by simp⟩
  · rw [ht.rep.root]
    rcases passes_free (h := h) (K := K) (n := n) (fuel := fuel) ht.rep (by omega) with h1 | ⟨h1, j, c, l, r, e⟩
    · exact ⟨false, by simp [h1], by simp⟩
    · simp only [h1, Bool.not_true]
      have hr : Rep h j (node c l n r) := Rep_plug.1 (e ▸ ht.rep)
      have hids := ids_plug j (node c l n r)
      rw [← e] at hids
      simp only [ids, lids, rids, List.nil_append, List.append_nil, T.toList] at hids
      have hl2 := congrArg List.length hids
      simp only [List.length_append, List.length_cons] at hl2
      have fx := hr.fields
      cases hc : compare K (h.key n) with
      | lt =>
        simp only [fx]
        cases hl0 : l with
        | leaf => exact ⟨true, rfl, fun _ => trivial⟩
        | node d a y b =>
          obtain ⟨z, hz⟩ := rightmost_free (fuel := fuel) hl0 (Rep_left.2 hr) (by omega)
          simp only [rootp_node, hz, Option.map_some]
          exact ⟨_, rfl, fun _ => trivial⟩
      | eq => exact ⟨true, rfl, fun _ => trivial⟩
      | gt =>
        simp only [fx]
        cases hr0 : r with
        | leaf => exact ⟨true, rfl, fun _ => trivial⟩
        | node d a y b =>
          obtain ⟨_, _, z, _, hz, _⟩ := leftmost_rep (fuel := fuel) hr0 (Rep_right.2 hr) (by omega)
          simp only [rootp_node, hz, Option.map_some]
          exact ⟨_, rfl, fun _ => trivial⟩

/-- A node alone in its ring may get any key and any `ρ`. -/
theorem setKey_struct {ρ h S n} (hi : SInv ρ h S) (hn : n ∈ S) (hle : listEmpty h n = true)
    (key : Nat → Nat) (v : Nat) : SInv (upd ρ n v) { h with key := key } S := by
  obtain ⟨κ, hi, hρ⟩ := hi
  refine ⟨κ, hi.setKey key, ?_⟩
  obtain ⟨hnd, t, ht, hs⟩ := hi
  simp only [listEmpty, Bool.and_eq_true, List.isEmpty_iff, Option.isNone_iff_eq_none] at hle
  have hnt : n ∈ t.toList := by
    rcases (hs n).1 hn with h1 | ⟨x, hx, h1⟩
    · exact h1
    · have := (ht.dups x hx n h1).2.2.1; rw [hle.2] at this; cases this
  have huniq : ∀ w ∈ t.toList, κ w = κ n → w = n := by
    intro w hw e
    by_contra hne
    have hp := ht.sorted
    have := List.Pairwise.forall_of_forall_of_flip (R := fun a b => a = b ∨ κ a ≠ κ b)
      (l := t.toList) (fun x _ => Or.inl rfl) (hp.imp fun h => Or.inr (by omega))
      (hp.imp fun h => Or.inr (by omega)) hw hnt
    rcases this with h3 | h3
    · exact hne h3
    · exact h3 e
  have alone : ∀ a ∈ S, κ a = κ n → a = n := by
    intro a ha e
    rcases (hs a).1 ha with h1 | ⟨x, hx, h1⟩
    · exact huniq a h1 e
    · have := (ht.dups x hx a h1).2.1
      have := huniq x hx (by omega)
      subst this
      rw [hle.1] at h1; cases h1
  intro a ha b hb e
  unfold upd
  by_cases h1 : a = n
  · subst h1
    rw [if_pos rfl, if_pos (alone b hb e.symm)]
  · rw [if_neg h1, if_neg (fun h2 : b = n => h1 (alone a ha (h2 ▸ e)))]
    exact hρ a ha b hb e

/-- A key is changed behind the back of the tree. -/
theorem SInv.setKey {ρ h S} (hi : SInv ρ h S) (key : Nat → Nat) : SInv ρ { h with key := key } S := by
  obtain ⟨κ, hi, hρ⟩ := hi
  exact ⟨κ, hi.setKey key, hρ⟩

theorem SInv.congr {ρ ρ' h S} (hi : SInv ρ h S) (hk : ∀ z ∈ S, ρ z = ρ' z) : SInv ρ' h S := by
  obtain ⟨κ, hi, hρ⟩ := hi
  refine ⟨κ, hi, fun a ha b hb e => ?_⟩
  rw [← hk a ha, ← hk b hb]; exact hρ a ha b hb e

theorem Inv.struct {ρ h S} (hi : Inv h.key h S) (hρ : ∀ a ∈ S, ∀ b ∈ S, h.key a = h.key b → ρ a = ρ b) :
    SInv ρ h S := ⟨h.key, hi, hρ⟩

/-- The order of the list of the stored nodes does not matter. -/
theorem Inv.perm {κ h S S'} (hi : Inv κ h S) (hn : S'.Nodup) (hm : ∀ z, z ∈ S' ↔ z ∈ S) : Inv κ h S' := by
  obtain ⟨_, t, ht, hs⟩ := hi
  exact ⟨hn, t, ht, fun z => (hm z).trans (hs z)⟩

theorem SInv.perm {ρ h S S'} (hi : SInv ρ h S) (hn : S'.Nodup) (hm : ∀ z, z ∈ S' ↔ z ∈ S) :
    SInv ρ h S' := by
  obtain ⟨κ, hi, hρ⟩ := hi
  exact ⟨κ, hi.perm hn hm, fun a ha b hb => hρ a ((hm a).1 ha) b ((hm b).1 hb)⟩

end Verif.RbTree
