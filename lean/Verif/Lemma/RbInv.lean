import Verif.Lemma.RbOps
import Mathlib.Data.List.Perm.Subperm

/-! # The invariant of the ordered tree and the effect of the operations -/

namespace Verif.RbTree

open T Fr

/-- The pointers represent the red-black tree `t`, ordered by `κ`, and the rings hang on its
nodes. -/
structure TInv (κ : Nat → Nat) (h : Heap) (t : T) : Prop where
  rep : Rep h [] t
  good : Good [] t
  sorted : t.toList.Pairwise (fun a b => κ a < κ b)
  headT : ∀ z ∈ t.toList, h.head z = none
  dups : ∀ x ∈ t.toList, ∀ d ∈ h.dups x, d ∉ t.toList ∧ κ d = κ x ∧ h.head d = some x ∧
    h.left d = none ∧ h.right d = none ∧ h.parent d = none
  ndup : ∀ x ∈ t.toList, (h.dups x).Nodup

/-- The node is in the tree or in a ring of a node in the tree. -/
def Holds (h : Heap) (t : T) (z : Nat) : Prop := z ∈ t.toList ∨ ∃ x ∈ t.toList, z ∈ h.dups x

/-- The structure contains exactly the nodes in `S`, ordered by `κ`. -/
def Inv (κ : Nat → Nat) (h : Heap) (S : List Nat) : Prop :=
  S.Nodup ∧ ∃ t, TInv κ h t ∧ ∀ z, z ∈ S ↔ Holds h t z

theorem Inv.congr {κ κ' h S} (hi : Inv κ h S) (hk : ∀ z ∈ S, κ z = κ' z) : Inv κ' h S := by
  obtain ⟨hn, t, ht, hs⟩ := hi
  have k1 : ∀ z ∈ t.toList, κ z = κ' z := fun z hz => hk z ((hs z).2 (Or.inl hz))
  refine ⟨hn, t, ⟨ht.rep, ht.good, ?_, ht.headT, ?_, ht.ndup⟩, hs⟩
  · refine ht.sorted.imp_of_mem ?_
    intro a b ha hb h1
    rwa [k1 a ha, k1 b hb] at h1
  · intro x hx d hd
    obtain ⟨a, b, c⟩ := ht.dups x hx d hd
    refine ⟨a, ?_, c⟩
    rw [← k1 x hx, ← hk d ((hs d).2 (Or.inr ⟨x, hx, hd⟩))]; exact b

theorem Inv.setKey {κ h S} (hi : Inv κ h S) (f) : Inv κ { h with key := f } S := by
  obtain ⟨hn, t, ht, hs⟩ := hi
  have e : ∀ t p q, Repr h p q t → Repr { h with key := f } p q t := fun t p q h1 =>
    Repr_congr (h := h) (fun _ _ => ⟨rfl, rfl, rfl, rfl⟩) h1
  obtain ⟨⟨q, p, h1, h2⟩, h3⟩ := ht.rep
  exact ⟨hn, t, ⟨⟨⟨q, p, h1, e _ _ _ h2⟩, h3⟩, ht.good, ht.sorted, ht.headT, ht.dups, ht.ndup⟩, hs⟩

theorem tree_len {κ h t} {S : List Nat} (hn : S.Nodup) (ht : TInv κ h t) (hs : ∀ z, z ∈ S ↔ Holds h t z) :
    t.toList.length ≤ S.length := by
  have h1 := ht.rep.nodup
  simp only [ids, lids, rids, List.nil_append, List.append_nil] at h1
  exact (List.Nodup.subperm h1 (fun z hz => (hs z).2 (Or.inl hz))).length_le

/-- Frame for the rings: the nodes of the rings keep their links and the keys. -/
theorem TInv_of_frame {κ h h' t t' S} (ht : TInv κ h t) (f : Frame h h' S)
    (hS : ∀ x ∈ t.toList, ∀ d ∈ h.dups x, d ∉ S) (hsub : ∀ z ∈ t'.toList, z ∈ t.toList)
    (hr : Rep h' [] t') (hg : Good [] t') (hso : t'.toList.Pairwise (fun a b => κ a < κ b)) :
    TInv κ h' t' := by
  refine ⟨hr, hg, hso, ?_, ?_, ?_⟩
  · intro z hz; rw [f.head]; exact ht.headT z (hsub z hz)
  · intro x hx d hd
    rw [f.dups] at hd
    obtain ⟨a1, a2, a3, a4, a5, a6⟩ := ht.dups x (hsub x hx) d hd
    obtain ⟨b1, b2, b3⟩ := f.out d (hS x (hsub x hx) d hd)
    exact ⟨fun h => a1 (hsub d h), a2, by rw [f.head, a3], by rw [b1, a4], by rw [b2, a5],
      by rw [b3, a6]⟩
  · intro x hx; rw [f.dups]; exact ht.ndup x (hsub x hx)

/-! ## Removal -/

theorem remove_inv {κ h S n fuel} (hi : Inv κ h S) (hn : n ∈ S) (hf : S.length + 3 ≤ fuel) :
    ∃ h', remove fuel h n = some h' ∧ Inv κ h' (S.erase n) ∧ h'.key = h.key := by
  obtain ⟨hnd, t, ht, hs⟩ := hi
  have hlen := tree_len hnd ht hs
  have hroot : ∀ z ∈ t.toList, h.parent z = none → h.root = some z := (Linked_rep ht.rep).2
  have hmem : ∀ z, z ∈ S.erase n ↔ Holds h t z ∧ z ≠ n := by
    intro z
    rw [hnd.mem_erase_iff, hs z, and_comm]
  have hnd' : (S.erase n).Nodup := hnd.erase n
  have hrt : ∀ z, h.root = some z → z ∈ t.toList := by
    intro z e
    rw [ht.rep.root] at e
    exact rootp_mem e
  by_cases hnt : n ∈ t.toList
  · cases hd : h.dups n with
    | nil =>
      -- alone: the node leaves the tree
      obtain ⟨k, c, l, r, e⟩ := focus hnt
      have hr : Rep h k (node c l n r) := Rep_plug.1 (e ▸ ht.rep)
      have hg : Good k (node c l n r) := (Good_plug _ _).1 (e ▸ ht.good)
      have hi := ids_plug k (node c l n r)
      rw [e] at hi
      simp only [ids, lids, rids, List.nil_append, List.append_nil] at hi
      obtain ⟨h', t', e1, r1, g1, i1, f1⟩ := removeLoop_rep (fuel := fuel)
        (by rw [ids, ← hi]; omega) hr hg
      have hsl : t'.toList.Sublist t.toList := by
        rw [i1, hi]; simp [T.toList]
      have hmem2 : ∀ z, z ∈ t'.toList ↔ z ∈ t.toList ∧ z ≠ n := by
        intro z
        have hn1 := hr.nodup
        simp only [ids, T.toList, List.nodup_append, List.nodup_cons, List.mem_append,
          List.mem_cons] at hn1
        rw [i1, hi]
        simp only [T.toList, List.mem_append, List.mem_cons]
        clear hi i1 e hmem hs; grind
      have hTI := TInv_of_frame ht (S := ids k (node c l n r)) f1
        (fun x hx d hd => by rw [ids, ← hi]; exact (ht.dups x hx d hd).1)
        (fun z hz => ((hmem2 z).1 hz).1) r1 g1 (ht.sorted.sublist hsl)
      refine ⟨h', ?_, ⟨hnd', t', hTI, ?_⟩, f1.key⟩
      · simp [remove, listEmpty, hd, ht.headT n hnt, e1]
      · intro z
        rw [hmem z]
        simp only [Holds, hmem2, f1.dups]
        constructor
        · rintro ⟨h1 | ⟨x, hx, hz⟩, h2⟩
          · exact Or.inl ⟨h1, h2⟩
          · refine Or.inr ⟨x, ⟨hx, ?_⟩, hz⟩
            rintro rfl; simp [hd] at hz
        · rintro (⟨h1, h2⟩ | ⟨x, ⟨hx, h3⟩, hz⟩)
          · exact ⟨Or.inl h1, h2⟩
          · exact ⟨Or.inr ⟨x, hx, hz⟩, by rintro rfl; exact (ht.dups x hx _ hz).1 hnt⟩
    | cons y rest =>
      -- the next node of the ring takes the place
      have hyd : y ∈ h.dups n := by simp [hd]
      obtain ⟨y1, y2, y3, y4, y5, y6⟩ := ht.dups n hnt y hyd
      obtain ⟨r1, f1, x1, x2, x3⟩ := swap_out_rep ht.rep hnt y1 y4 y5 y6
      have hny : n ≠ y := by rintro rfl; exact y1 hnt
      have hnr : y ∉ rest ∧ rest.Nodup := by
        have := ht.ndup n hnt; rw [hd, List.nodup_cons] at this; exact this
      have hnn : n ∉ rest := fun h1 => (ht.dups n hnt n (by simp [hd, h1])).1 hnt
      have hTL : ∀ z, z ∈ (t.rename (sw n y)).toList ↔ z = y ∨ (z ∈ t.toList ∧ z ≠ n) := by
        intro z
        rw [toList_rename, List.mem_map]
        constructor
        · rintro ⟨w, hw, rfl⟩
          unfold sw
          split
          · exact Or.inl rfl
          · split
            · next h1 => subst h1; exact absurd hw y1
            · next h1 h2 => exact Or.inr ⟨hw, h1⟩
        · rintro (rfl | ⟨h1, h2⟩)
          · exact ⟨n, hnt, by simp [sw]⟩
          · refine ⟨z, h1, ?_⟩
            have : z ≠ y := by rintro rfl; exact y1 h1
            simp [sw, h2, this]
      have hrep : Rep (passRing (swap h n y) n y rest) [] (t.rename (sw n y)) := by
        obtain ⟨⟨q, p, h1, h2⟩, h3⟩ := r1
        exact ⟨⟨q, p, h1, Repr_congr (h := swap h n y) (fun _ _ => ⟨rfl, rfl, rfl, rfl⟩) h2⟩, h3⟩
      have hdup : ∀ x, (passRing (swap h n y) n y rest).dups x =
          if x = y then rest else if x = n then [] else h.dups x := by
        intro x; simp [passRing, upd, f1.dups]
      have hhead : ∀ z, (passRing (swap h n y) n y rest).head z =
          if z ∈ rest then some y else if z = y then none else h.head z := by
        intro x; simp [passRing, f1.head]
      refine ⟨passRing (swap h n y) n y rest, ?_, ⟨hnd', t.rename (sw n y), ⟨hrep, ?_, ?_, ?_, ?_, ?_⟩, ?_⟩, ?_⟩
      · have : ¬ (h.parent n = none ∧ h.root ≠ some n) := fun h1 => h1.2 (hroot n hnt h1.1)
        simp only [remove, listEmpty, hd, List.isEmpty_cons, Bool.false_and, Bool.not_false, if_true,
          if_neg this]
      · exact Good_rename.2 ht.good
      · rw [toList_rename, List.pairwise_map]
        refine ht.sorted.imp_of_mem ?_
        intro a b ha hb h1
        have e : ∀ a ∈ t.toList, κ (sw n y a) = κ a := by
          intro a ha
          unfold sw
          split
          · next e => subst e; exact y2
          · split
            · next e => subst e; exact absurd ha y1
            · rfl
        rwa [e a ha, e b hb]
      · intro z hz
        rw [hTL] at hz
        rw [hhead]
        rcases hz with rfl | ⟨h1, h2⟩
        · simp [hnr.1]
        · have h3 : z ∉ rest := fun h3 => (ht.dups n hnt z (by simp [hd, h3])).1 h1
          rw [if_neg h3]; split
          · rfl
          · exact ht.headT z h1
      · intro x hx d hdx
        rw [hTL] at hx
        rw [hdup] at hdx
        have out : ∀ d, d ≠ y → d ∉ t.toList →
            (passRing (swap h n y) n y rest).left d = h.left d ∧
            (passRing (swap h n y) n y rest).right d = h.right d ∧
            (passRing (swap h n y) n y rest).parent d = h.parent d := by
          intro d h1 h2
          exact f1.out d (by simp [h1, h2])
        rcases hx with rfl | ⟨h1, h2⟩
        · rw [if_pos rfl] at hdx
          obtain ⟨a1, a2, a3, a4, a5, a6⟩ := ht.dups n hnt d (by simp [hd, hdx])
          have hdy : d ≠ x := by rintro rfl; exact hnr.1 hdx
          obtain ⟨b1, b2, b3⟩ := out d hdy a1
          refine ⟨?_, by rw [a2, y2], ?_, by rw [b1, a4], by rw [b2, a5], by rw [b3, a6]⟩
          · rw [hTL]; rintro (h3 | h3)
            · exact hdy h3
            · exact a1 h3.1
          · rw [hhead, if_pos hdx]
        · have hxy : x ≠ y := by rintro rfl; exact y1 h1
          rw [if_neg hxy, if_neg h2] at hdx
          obtain ⟨a1, a2, a3, a4, a5, a6⟩ := ht.dups x h1 d hdx
          have hdy : d ≠ y := by rintro rfl; rw [y3] at a3; cases a3; exact h2 rfl
          have hdr : d ∉ rest := by
            intro h3
            have := (ht.dups n hnt d (by simp [hd, h3])).2.2.1
            rw [a3] at this; cases this; exact h2 rfl
          obtain ⟨b1, b2, b3⟩ := out d hdy a1
          refine ⟨?_, a2, ?_, by rw [b1, a4], by rw [b2, a5], by rw [b3, a6]⟩
          · rw [hTL]; rintro (h3 | h3)
            · exact hdy h3
            · exact a1 h3.1
          · rw [hhead, if_neg hdr, if_neg hdy, a3]
      · intro x hx
        rw [hTL] at hx
        rw [hdup]
        rcases hx with rfl | ⟨h1, h2⟩
        · rw [if_pos rfl]; exact hnr.2
        · have hxy : x ≠ y := by rintro rfl; exact y1 h1
          rw [if_neg hxy, if_neg h2]; exact ht.ndup x h1
      · intro z
        rw [hmem z]
        simp only [Holds, hTL]
        constructor
        · rintro ⟨h1 | ⟨x, hx, hz⟩, h2⟩
          · exact Or.inl (Or.inr ⟨h1, h2⟩)
          · by_cases hxn : x = n
            · subst hxn
              rw [hd, List.mem_cons] at hz
              rcases hz with rfl | hz
              · exact Or.inl (Or.inl rfl)
              · exact Or.inr ⟨y, Or.inl rfl, by rw [hdup, if_pos rfl]; exact hz⟩
            · have hxy : x ≠ y := by rintro rfl; exact y1 hx
              exact Or.inr ⟨x, Or.inr ⟨hx, hxn⟩, by rw [hdup, if_neg hxy, if_neg hxn]; exact hz⟩
        · rintro ((rfl | ⟨h1, h2⟩) | ⟨x, hx, hz⟩)
          · exact ⟨Or.inr ⟨n, hnt, hyd⟩, Ne.symm hny⟩
          · exact ⟨Or.inl h1, h2⟩
          · rw [hdup] at hz
            rcases hx with rfl | ⟨h1, h2⟩
            · rw [if_pos rfl] at hz
              exact ⟨Or.inr ⟨n, hnt, by simp [hd, hz]⟩, by rintro rfl; exact hnn hz⟩
            · have hxy : x ≠ y := by rintro rfl; exact y1 h1
              rw [if_neg hxy, if_neg h2] at hz
              exact ⟨Or.inr ⟨x, h1, hz⟩, by rintro rfl; exact (ht.dups x h1 _ hz).1 hnt⟩
      · exact f1.key
  · -- in a ring, not in the tree
    obtain ⟨x, hx, hnx⟩ := ((hs n).1 hn).resolve_left hnt
    obtain ⟨a1, a2, a3, a4, a5, a6⟩ := ht.dups x hx n hnx
    have hrep : Rep (listDel h n) [] t := by
      obtain ⟨⟨q, p, h1, h2⟩, h3⟩ := ht.rep
      refine ⟨⟨q, p, ?_, Repr_congr (h := h) (fun _ _ => ?_) h2⟩, h3⟩
      · simp only [listDel, a3]; exact h1
      · simp only [listDel, a3]; exact ⟨rfl, rfl, rfl, rfl⟩
    have hdup : ∀ w, (listDel h n).dups w = if w = x then (h.dups x).filter (· ≠ n) else h.dups w := by
      intro w; simp [listDel, a3, upd]
    have hhead : ∀ w, (listDel h n).head w = if w = n then none else h.head w := by
      intro w; simp [listDel, a3, upd]
    have hlnk : (listDel h n).left = h.left ∧ (listDel h n).right = h.right ∧
        (listDel h n).parent = h.parent ∧ (listDel h n).key = h.key := by simp [listDel, a3]
    have hdm : ∀ w ∈ t.toList, ∀ d, d ∈ (listDel h n).dups w ↔ d ∈ h.dups w ∧ d ≠ n := by
      intro w hw d
      rw [hdup]
      split
      · next e => subst e; simp
      · next e =>
        constructor
        · intro h1
          refine ⟨h1, ?_⟩
          rintro rfl
          have := (ht.dups w hw _ h1).2.2.1
          rw [a3] at this; cases this; exact e rfl
        · exact fun h1 => h1.1
    refine ⟨listDel h n, ?_, ⟨hnd', t, ⟨hrep, ht.good, ht.sorted, ?_, ?_, ?_⟩, ?_⟩, hlnk.2.2.2⟩
    · have h1 : h.root ≠ some n := fun e => hnt (hrt n e)
      have h2 : listEmpty h n = false := by simp [listEmpty, a3]
      simp [remove, h2, a6, h1]
    · intro z hz; rw [hhead]; split
      · rfl
      · exact ht.headT z hz
    · intro w hw d hd
      rw [hdm w hw] at hd
      obtain ⟨b1, b2, b3, b4⟩ := ht.dups w hw d hd.1
      rw [hhead, if_neg hd.2, hlnk.1, hlnk.2.1, hlnk.2.2.1]
      exact ⟨b1, b2, b3, b4⟩
    · intro w hw
      rw [hdup]
      split
      · exact (ht.ndup x hx).filter _
      · exact ht.ndup w hw
    · intro z
      rw [hmem z]
      constructor
      · rintro ⟨h1 | ⟨w, hw, hz⟩, h2⟩
        · exact Or.inl h1
        · exact Or.inr ⟨w, hw, (hdm w hw z).2 ⟨hz, h2⟩⟩
      · rintro (h1 | ⟨w, hw, hz⟩)
        · exact ⟨Or.inl h1, by rintro rfl; exact hnt h1⟩
        · have := (hdm w hw z).1 hz
          exact ⟨Or.inr ⟨w, hw, this.1⟩, this.2⟩

/-! ## Insertion -/

/-- The search ends at a node with the key or at the place where it belongs. -/
theorem descend_spec {h K} : ∀ {t k fuel c l x r}, t = node c l x r → Rep h k t →
    (∀ z ∈ lids k, h.key z < K) → (∀ z ∈ rids k, K < h.key z) →
    t.toList.Pairwise (fun a b => h.key a < h.key b) → t.toList.length ≤ fuel →
    (∃ z ∈ t.toList, h.key z = K ∧ descend fuel h K x = some (z, .eq)) ∨
    (∃ k' c y r, plug (L c y r :: k') leaf = plug k t ∧ descend fuel h K x = some (y, .lt) ∧
      (∀ z ∈ lids (L c y r :: k'), h.key z < K) ∧ (∀ z ∈ rids (L c y r :: k'), K < h.key z)) ∨
    (∃ k' c y l, plug (R c l y :: k') leaf = plug k t ∧ descend fuel h K x = some (y, .gt) ∧
      (∀ z ∈ lids (R c l y :: k'), h.key z < K) ∧ (∀ z ∈ rids (R c l y :: k'), K < h.key z))
  | leaf, _, _, _, _, _, _, e, _, _, _, _, _ => by cases e
  | node c l x r, k, 0, _, _, _, _, e, hr, _, _, _, hf => by simp [T.toList] at hf
  | node c l x r, k, fuel + 1, _, _, _, _, e, hr, h1, h2, hs, hf => by
    cases e
    have fx := hr.fields
    simp only [T.toList, List.pairwise_append, List.pairwise_cons, List.mem_cons] at hs
    obtain ⟨s1, ⟨s2, s3⟩, s4⟩ := hs
    rcases Nat.lt_trichotomy K (h.key x) with hc | hc | hc
    · have hcmp : compare K (h.key x) = .lt := Nat.compare_eq_lt.2 hc
      have h2' : ∀ z ∈ rids (L c x r :: k), K < h.key z := by
        intro z hz
        simp only [rids, List.mem_cons, List.mem_append] at hz
        rcases hz with rfl | hz | hz
        · exact hc
        · have := s2 z hz; omega
        · exact h2 z hz
      cases l with
      | leaf =>
        refine Or.inr (Or.inl ⟨k, c, x, r, rfl, ?_, h1, h2'⟩)
        simp [descend, hcmp, fx, rootp]
      | node d a y b =>
        have := descend_spec (t := node d a y b) (fuel := fuel) rfl (Rep_left.2 hr) h1 h2' s1
          (by simp [T.toList] at hf ⊢; omega)
        have hd : descend (fuel + 1) h K x = descend fuel h K y := by
          simp [descend, hcmp, fx, rootp]
        rw [hd]
        rcases this with ⟨z, hz, h3, h4⟩ | h3 | h3
        · exact Or.inl ⟨z, by simp only [T.toList, List.mem_append, List.mem_cons] at hz ⊢; grind, h3, h4⟩
        · exact Or.inr (Or.inl h3)
        · exact Or.inr (Or.inr h3)
    · left
      refine ⟨x, by simp [T.toList], hc.symm, ?_⟩
      simp [descend, hc]
    · have hcmp : compare K (h.key x) = .gt := Nat.compare_eq_gt.2 hc
      have h1' : ∀ z ∈ lids (R c l x :: k), h.key z < K := by
        intro z hz
        simp only [lids, List.mem_cons, List.mem_append, List.not_mem_nil, or_false] at hz
        rcases hz with hz | hz | rfl
        · exact h1 z hz
        · have := s4 z hz x (Or.inl rfl); omega
        · exact hc
      cases r with
      | leaf =>
        refine Or.inr (Or.inr ⟨k, c, x, l, rfl, ?_, h1', h2⟩)
        simp [descend, hcmp, fx, rootp]
      | node d a y b =>
        have := descend_spec (t := node d a y b) (fuel := fuel) rfl (Rep_right.2 hr) h1' h2 s3
          (by simp [T.toList] at hf ⊢; omega)
        have hd : descend (fuel + 1) h K x = descend fuel h K y := by
          simp [descend, hcmp, fx, rootp]
        rw [hd]
        rcases this with ⟨z, hz, h3, h4⟩ | h3 | h3
        · exact Or.inl ⟨z, by simp only [T.toList, List.mem_append, List.mem_cons] at hz ⊢; grind, h3, h4⟩
        · exact Or.inr (Or.inl h3)
        · exact Or.inr (Or.inr h3)

theorem attach_left {h : Heap} {k c y r n} (hr : Rep h (L c y r :: k) leaf)
    (hn : n ∉ ids (L c y r :: k) leaf) (n1 : h.left n = none) (n2 : h.right n = none) :
    Rep (setLeft (setParent (setRed h n true) n (some y)) y (some n)) (L c y r :: k)
      (node true leaf n leaf) := by
  obtain ⟨⟨q, p, h1, h2⟩, hnd⟩ := hr
  simp only [ReprC] at h1
  obtain ⟨rfl, rfl, h3, h4, h5⟩ := h1
  simp only [ids, lids, rids, T.toList, List.nil_append, List.mem_append, List.mem_cons, not_or] at hn
  have hny : n ≠ y := hn.2.1
  have hnd2 := hnd
  simp only [ids, lids, rids, T.toList, List.nil_append, List.nodup_append, List.nodup_cons,
    List.mem_append, List.mem_cons] at hnd2
  have key : ∀ z, z ≠ n → z ≠ y → Same h (setLeft (setParent (setRed h n true) n (some y)) y (some n)) z := by
    intro z z1 z2; simp [Same, setLeft, setParent, setRed, upd, z1, z2]
  refine ⟨⟨some n, some y, ⟨rfl, ?_, ?_, ?_, ?_⟩, rfl, ?_, ?_, ?_, ?_⟩, ?_⟩
  · simp [setLeft, upd]
  · simp [setLeft, setParent, setRed, upd, Ne.symm hny, h3]
  · refine Repr_congr (h := h) (fun z hz => key z ?_ ?_) h4
    · rintro rfl; exact hn.2.2.1 hz
    · rintro rfl; grind
  · have : (setLeft (setParent (setRed h n true) n (some y)) y (some n)).parent y = h.parent y := by
      simp [setLeft, setParent, setRed, upd, Ne.symm hny]
    rw [this]
    refine ReprC_congr (h := h) (fun z hz => key z ?_ ?_) rfl h5
    · rintro rfl; simp only [List.mem_append] at hz; grind
    · rintro rfl; simp only [List.mem_append] at hz; grind
  · simp [setLeft, setParent, setRed, upd]
  · simp [setLeft, setParent, setRed, upd]
  · simp [setLeft, setParent, setRed, upd, hny, n1, Repr]
  · simp [setLeft, setParent, setRed, n2, Repr]
  · simp only [ids, lids, rids, T.toList, List.nil_append, List.nodup_append, List.nodup_cons,
      List.mem_append, List.mem_cons, List.cons_append]
    grind

theorem attach_right {h : Heap} {k c y l n} (hr : Rep h (R c l y :: k) leaf)
    (hn : n ∉ ids (R c l y :: k) leaf) (n1 : h.left n = none) (n2 : h.right n = none) :
    Rep (setRight (setParent (setRed h n true) n (some y)) y (some n)) (R c l y :: k)
      (node true leaf n leaf) := by
  obtain ⟨⟨q, p, h1, h2⟩, hnd⟩ := hr
  simp only [ReprC] at h1
  obtain ⟨rfl, rfl, h3, h4, h5⟩ := h1
  simp only [ids, lids, rids, T.toList, List.nil_append, List.mem_append, List.mem_cons, not_or,
    List.not_mem_nil, not_false_eq_true, and_true] at hn
  have hny : n ≠ y := hn.1.2.2
  have hnd2 := hnd
  simp only [ids, lids, rids, T.toList, List.nil_append, List.nodup_append, List.nodup_cons,
    List.mem_append, List.mem_cons, List.not_mem_nil] at hnd2
  have key : ∀ z, z ≠ n → z ≠ y → Same h (setRight (setParent (setRed h n true) n (some y)) y (some n)) z := by
    intro z z1 z2; simp [Same, setRight, setParent, setRed, upd, z1, z2]
  refine ⟨⟨some n, some y, ⟨rfl, ?_, ?_, ?_, ?_⟩, rfl, ?_, ?_, ?_, ?_⟩, ?_⟩
  · simp [setRight, upd]
  · simp [setRight, setParent, setRed, upd, Ne.symm hny, h3]
  · refine Repr_congr (h := h) (fun z hz => key z ?_ ?_) h4
    · rintro rfl; exact hn.1.2.1 hz
    · rintro rfl; grind
  · have : (setRight (setParent (setRed h n true) n (some y)) y (some n)).parent y = h.parent y := by
      simp [setRight, setParent, setRed, upd, Ne.symm hny]
    rw [this]
    refine ReprC_congr (h := h) (fun z hz => key z ?_ ?_) rfl h5
    · rintro rfl; simp only [List.mem_append] at hz; grind
    · rintro rfl; simp only [List.mem_append] at hz; grind
  · simp [setRight, setParent, setRed, upd]
  · simp [setRight, setParent, setRed, upd]
  · simp [setRight, setParent, setRed, n1, Repr]
  · simp [setRight, setParent, setRed, upd, hny, n2, Repr]
  · simp only [ids, lids, rids, T.toList, List.nil_append, List.nodup_append, List.nodup_cons,
      List.mem_append, List.mem_cons, List.cons_append, List.not_mem_nil]
    grind

/-- The tree after a node was put at its place. -/
theorem insert_finish {κ : Nat → Nat} {h h0 h' : Heap} {t t' : T} {k n} {S : List Nat} (ht : TInv κ h t)
    (hs : ∀ z, z ∈ S ↔ Holds h t z) (hnd : S.Nodup) (hn : n ∉ S) 
    (hd0 : ∀ z, z ≠ n → h0.dups z = h.dups z) (hd1 : h0.dups n = [])
    (hh0 : ∀ z, z ≠ n → h0.head z = h.head z) (hh1 : h0.head n = none)
    (ho : ∀ z, z ≠ n → h0.left z = h.left z ∧ h0.right z = h.right z ∧ h0.parent z = h.parent z)
    (hi : t.toList = lids k ++ rids k) (hl : ∀ z ∈ lids k, κ z < κ n)
    (hr : ∀ z ∈ rids k, κ n < κ z)
    (f : Frame h0 h' (lids k ++ n :: rids k)) (rep : Rep h' [] t') (good : Good [] t')
    (hi' : t'.toList = lids k ++ n :: rids k) : Inv κ h' (n :: S) := by
  have hmem : ∀ z, z ∈ t'.toList ↔ z = n ∨ z ∈ t.toList := by
    intro z; rw [hi, hi']; simp only [List.mem_append, List.mem_cons]; grind
  have hnt : n ∉ t.toList := fun h1 => hn ((hs n).2 (Or.inl h1))
  refine ⟨List.nodup_cons.2 ⟨hn, hnd⟩, t', ⟨rep, good, ?_, ?_, ?_, ?_⟩, ?_⟩
  · have := ht.sorted
    rw [hi, List.pairwise_append] at this
    rw [hi', List.pairwise_append, List.pairwise_cons]
    refine ⟨this.1, ⟨hr, this.2.1⟩, ?_⟩
    intro a ha b hb
    rcases List.mem_cons.1 hb with rfl | hb
    · exact hl a ha
    · exact this.2.2 a ha b hb
  · intro z hz
    rw [f.head]
    rcases (hmem z).1 hz with rfl | hz
    · exact hh1
    · rw [hh0 z (by rintro rfl; exact hnt hz)]; exact ht.headT z hz
  · intro x hx d hd
    rw [f.dups] at hd
    rcases (hmem x).1 hx with rfl | hx
    · rw [hd1] at hd; simp at hd
    · rw [hd0 x (by rintro rfl; exact hnt hx)] at hd
      obtain ⟨a1, a2, a3, a4, a5, a6⟩ := ht.dups x hx d hd
      have hdn : d ≠ n := by rintro rfl; exact hn ((hs _).2 (Or.inr ⟨x, hx, hd⟩))
      obtain ⟨b1, b2, b3⟩ := f.out d (by
        rw [← hi', hmem]; rintro (h1 | h1)
        · exact hdn h1
        · exact a1 h1)
      obtain ⟨c1, c2, c3⟩ := ho d hdn
      refine ⟨?_, a2, by rw [f.head, hh0 d hdn, a3], by rw [b1, c1, a4], by rw [b2, c2, a5],
        by rw [b3, c3, a6]⟩
      rw [hmem]; rintro (h1 | h1)
      · exact hdn h1
      · exact a1 h1
  · intro x hx
    rw [f.dups]
    rcases (hmem x).1 hx with rfl | hx
    · rw [hd1]; exact List.nodup_nil
    · rw [hd0 x (by rintro rfl; exact hnt hx)]; exact ht.ndup x hx
  · intro z
    rw [List.mem_cons, hs z]
    simp only [Holds, hmem, f.dups]
    constructor
    · rintro (h1 | h1 | ⟨x, hx, h1⟩)
      · exact Or.inl (Or.inl h1)
      · exact Or.inl (Or.inr h1)
      · exact Or.inr ⟨x, Or.inr hx, by rwa [hd0 x (by rintro rfl; exact hnt hx)]⟩
    · rintro ((h1 | h1) | ⟨x, rfl | hx, h1⟩)
      · exact Or.inl h1
      · exact Or.inr (Or.inl h1)
      · rw [hd1] at h1; simp at h1
      · rw [hd0 x (by rintro rfl; exact hnt hx)] at h1
        exact Or.inr (Or.inr ⟨x, hx, h1⟩)

/-- The node with its links cleared. -/
def cleared (h : Heap) (n : Nat) : Heap :=
  setParent (setRight (setLeft { h with
      dups := upd h.dups n [], head := upd h.head n none } n none) n none) n none

/-- Where the search for the place of a new node ends, in terms of an order of the nodes. -/
def Outcome (κ : Nat → Nat) (K : Nat) (fuel : Nat) (h : Heap) (t : T) (n x : Nat) : Prop :=
  (∃ z ∈ t.toList, κ z = κ n ∧ descend fuel h K x = some (z, .eq)) ∨
  (∃ k c y r, plug (L c y r :: k) leaf = t ∧ descend fuel h K x = some (y, .lt) ∧
    (∀ z ∈ lids (L c y r :: k), κ z < κ n) ∧ (∀ z ∈ rids (L c y r :: k), κ n < κ z)) ∨
  (∃ k c y l, plug (R c l y :: k) leaf = t ∧ descend fuel h K x = some (y, .gt) ∧
    (∀ z ∈ lids (R c l y :: k), κ z < κ n) ∧ (∀ z ∈ rids (R c l y :: k), κ n < κ z))

theorem insert_gen {κ : Nat → Nat} {h S n fuel t} (hnd : S.Nodup) (ht : TInv κ h t)
    (hs : ∀ z, z ∈ S ↔ Holds h t z) (hn : n ∉ S) (hf : S.length + 1 ≤ fuel)
    (hd : ∀ c l x r, t = node c l x r → Rep (cleared h n) [] t →
      Outcome κ (h.key n) fuel (cleared h n) t n x) :
    ∃ h', insert fuel h n = some h' ∧ Inv κ h' (n :: S) ∧ h'.key = h.key := by
  have hlen := tree_len hnd ht hs
  have hnt : n ∉ t.toList := fun h1 => hn ((hs n).2 (Or.inl h1))
  obtain ⟨h0, e0⟩ : ∃ h0, h0 = cleared h n := ⟨_, rfl⟩
  rw [← e0] at hd
  unfold cleared at e0
  have k0 : h0.key = h.key := by rw [e0]; rfl
  have k1 : ∀ z, z ≠ n → h0.dups z = h.dups z := by
    intro z hz; rw [e0]; simp [setParent, setRight, setLeft, upd, hz]
  have k2 : h0.dups n = [] := by rw [e0]; simp [setParent, setRight, setLeft, upd]
  have k3 : ∀ z, z ≠ n → h0.head z = h.head z := by
    intro z hz; rw [e0]; simp [setParent, setRight, setLeft, upd, hz]
  have k4 : h0.head n = none := by rw [e0]; simp [setParent, setRight, setLeft, upd]
  have k5 : ∀ z, z ≠ n → h0.left z = h.left z ∧ h0.right z = h.right z ∧ h0.parent z = h.parent z ∧
      h0.red z = h.red z := by
    intro z hz; rw [e0]; simp [setParent, setRight, setLeft, upd, hz]
  have k6 : h0.left n = none ∧ h0.right n = none ∧ h0.parent n = none := by
    rw [e0]; simp [setParent, setRight, setLeft, upd]
  have k7 : h0.root = h.root := by rw [e0]; rfl
  have hr0 : Rep h0 [] t := by
    obtain ⟨⟨q, p, h1, h2⟩, h3⟩ := ht.rep
    refine ⟨⟨q, p, ?_, Repr_congr (h := h) (fun z hz => ?_) h2⟩, h3⟩
    · simp only [ReprC, k7] at h1 ⊢; exact h1
    · exact k5 z (by rintro rfl; exact hnt hz)
  have ho : ∀ z, z ≠ n → h0.left z = h.left z ∧ h0.right z = h.right z ∧ h0.parent z = h.parent z :=
    fun z hz => ⟨(k5 z hz).1, (k5 z hz).2.1, (k5 z hz).2.2.1⟩
  have hins : insert fuel h n = (match h0.root with
      | none => some { setRed h0 n false with root := some n }
      | some r =>
        match descend fuel h0 (h0.key n) r with
        | none => none
        | some (iter, .eq) =>
          some { h0 with dups := upd h0.dups iter (h0.dups iter ++ [n]), head := upd h0.head n (some iter) }
        | some (iter, .lt) =>
          fixViolation fuel (setLeft (setParent (setRed h0 n true) n (some iter)) iter (some n)) n
        | some (iter, .gt) =>
          fixViolation fuel (setRight (setParent (setRed h0 n true) n (some iter)) iter (some n)) n) := by
    rw [e0]; rfl
  cases ht0 : t with
  | leaf =>
    have hroot : h0.root = none := by rw [hr0.root, ht0]; rfl
    refine ⟨{ setRed h0 n false with root := some n }, by rw [hins, hroot], ?_, k0⟩
    subst ht0
    refine insert_finish (k := []) (t' := node false leaf n leaf) (h0 := h0) ht hs hnd hn k1 k2 k3 k4 ho rfl
      (by simp [lids]) (by simp [rids]) ?_ ?_ ⟨1, trivial, ⟨rfl, rfl⟩, by simp [rootRed]⟩ rfl
    · exact ⟨fun _ _ => ⟨rfl, rfl, rfl⟩, rfl, rfl, rfl⟩
    · refine ⟨⟨some n, none, ⟨rfl, rfl⟩, rfl, k6.2.2, by simp [setRed, upd], k6.1, k6.2.1⟩, ?_⟩
      simp [ids, lids, rids, T.toList]
  | node c l x r =>
    have hroot : h0.root = some x := by rw [hr0.root, ht0]; rfl
    rw [hroot] at hins
    simp only at hins
    have := hd c l x r ht0 hr0
    rw [← k0] at this
    rcases this with ⟨z, hz, h1, h2⟩ | ⟨k, c, y, r, h1, h2, h3, h4⟩ | ⟨k, c, y, l, h1, h2, h3, h4⟩
    · rw [h2] at hins
      refine ⟨_, hins, ?_, k0⟩
      have hzn : z ≠ n := by rintro rfl; exact hnt hz
      refine ⟨List.nodup_cons.2 ⟨hn, hnd⟩, t, ⟨?_, ht.good, ?_, ?_, ?_, ?_⟩, ?_⟩
      · obtain ⟨⟨q, p, h1, h2⟩, h3⟩ := hr0
        simp only [ReprC] at h1
        rw [hroot] at h1
        exact ⟨⟨q, p, h1, Repr_congr (h := h0) (fun _ _ => ⟨rfl, rfl, rfl, rfl⟩) h2⟩, h3⟩
      · exact ht.sorted
      · intro w hw
        have hwn : w ≠ n := by rintro rfl; exact hnt hw
        simp only [upd, if_neg hwn, k3 w hwn]; exact ht.headT w hw
      · intro w hw d hd
        have hwn : w ≠ n := by rintro rfl; exact hnt hw
        simp only [upd] at hd ⊢
        have old : d ∈ h.dups w → d ∉ t.toList ∧ κ d = κ w ∧
            (if d = n then some z else h0.head d) = some w ∧ h0.left d = none ∧ h0.right d = none ∧
            h0.parent d = none := by
          intro hd'
          obtain ⟨a1, a2, a3, a4, a5, a6⟩ := ht.dups w hw d hd'
          have hdn : d ≠ n := by rintro rfl; exact hn ((hs _).2 (Or.inr ⟨w, hw, hd'⟩))
          obtain ⟨b1, b2, b3⟩ := ho d hdn
          exact ⟨a1, a2, by rw [if_neg hdn, k3 d hdn, a3], by rw [b1, a4], by rw [b2, a5], by rw [b3, a6]⟩
        split at hd
        · next e =>
          subst e
          rw [k1 w hwn, List.mem_append, List.mem_singleton] at hd
          rcases hd with hd | rfl
          · exact old hd
          · exact ⟨hnt, h1.symm, by rw [if_pos rfl], k6.1, k6.2.1, k6.2.2⟩
        · rw [k1 w hwn] at hd; exact old hd
      · intro w hw
        have hwn : w ≠ n := by rintro rfl; exact hnt hw
        simp only [upd]
        split
        · next e =>
          subst e
          rw [k1 w hwn, List.nodup_append]
          refine ⟨ht.ndup w hw, List.nodup_singleton n, ?_⟩
          intro a ha b hb
          rw [List.mem_singleton] at hb
          subst hb
          rintro rfl
          exact hn ((hs _).2 (Or.inr ⟨w, hw, ha⟩))
        · rw [k1 w hwn]; exact ht.ndup w hw
      · intro w
        rw [List.mem_cons, hs w]
        simp only [Holds, upd]
        constructor
        · rintro (rfl | h1 | ⟨v, hv, h7⟩)
          · exact Or.inr ⟨z, hz, by simp⟩
          · exact Or.inl h1
          · refine Or.inr ⟨v, hv, ?_⟩
            have hvn : v ≠ n := by rintro rfl; exact hnt hv
            split
            · next e => subst e; rw [k1 v hvn, List.mem_append]; exact Or.inl h7
            · rw [k1 v hvn]; exact h7
        · rintro (h1 | ⟨v, hv, h1⟩)
          · exact Or.inr (Or.inl h1)
          · have hvn : v ≠ n := by rintro rfl; exact hnt hv
            split at h1
            · next e =>
              subst e
              rw [k1 v hvn, List.mem_append, List.mem_singleton] at h1
              rcases h1 with h1 | h1
              · exact Or.inr (Or.inr ⟨v, hv, h1⟩)
              · exact Or.inl h1
            · rw [k1 v hvn] at h1
              exact Or.inr (Or.inr ⟨v, hv, h1⟩)
    · rw [h2] at hins
      have hrk : Rep h0 (L c y r :: k) leaf := Rep_plug.1 (h1 ▸ hr0)
      have hgk : Good (L c y r :: k) leaf := (Good_plug _ _).1 (h1 ▸ ht.good)
      have hi := ids_plug (L c y r :: k) leaf
      rw [h1] at hi
      simp only [ids, lids, rids, List.nil_append, List.append_nil, T.toList, plug] at hi
      have hnk : n ∉ ids (L c y r :: k) leaf := by
        simp only [ids, lids, rids, T.toList, List.nil_append]; rw [← hi]; exact hnt
      have ra := attach_left hrk hnk k6.1 k6.2.1
      obtain ⟨m, gm, gl, _⟩ := hgk
      simp only [RB] at gl
      subst gl
      have hkl : (L c y r :: k).length < fuel := by
        have := length_ids (L c y r :: k) leaf
        have hi2 := congrArg List.length hi
        simp [ids, lids, rids, T.toList] at this hi2 ⊢
        omega
      obtain ⟨h', t', e', r', g', i', f'⟩ := fixViolation_rep fuel hkl ra
        (show RB (node true leaf n leaf) 0 from ⟨rfl, rfl, rfl, rfl⟩) gm
      refine ⟨h', hins.trans e', ?_, f'.key.trans k0⟩
      refine insert_finish (k := L c y r :: k) (t' := t') (h0 := h0) ht hs hnd hn k1 k2 k3 k4 ho hi h3 h4 ?_ r' g' ?_
      · have fa : Frame h0 (setLeft (setParent (setRed h0 n true) n (some y)) y (some n))
            (lids (L c y r :: k) ++ n :: rids (L c y r :: k)) := by
          refine ⟨fun z hz => ?_, rfl, rfl, rfl⟩
          simp only [lids, rids, List.mem_append, List.mem_cons, not_or] at hz
          simp [setLeft, setParent, setRed, upd, hz]
        exact fa.trans (f'.cast (by simp [ids, T.toList]))
      · simpa [ids, lids, rids, T.toList] using i'
    · rw [h2] at hins
      have hrk : Rep h0 (R c l y :: k) leaf := Rep_plug.1 (h1 ▸ hr0)
      have hgk : Good (R c l y :: k) leaf := (Good_plug _ _).1 (h1 ▸ ht.good)
      have hi := ids_plug (R c l y :: k) leaf
      rw [h1] at hi
      simp only [ids, lids, rids, List.nil_append, List.append_nil, T.toList, plug] at hi
      have hnk : n ∉ ids (R c l y :: k) leaf := by
        simp only [ids, lids, rids, T.toList, List.nil_append]; rw [← hi]; exact hnt
      have ra := attach_right hrk hnk k6.1 k6.2.1
      obtain ⟨m, gm, gl, _⟩ := hgk
      simp only [RB] at gl
      subst gl
      have hkl : (R c l y :: k).length < fuel := by
        have := length_ids (R c l y :: k) leaf
        have hi2 := congrArg List.length hi
        simp [ids, lids, rids, T.toList] at this hi2 ⊢
        omega
      obtain ⟨h', t', e', r', g', i', f'⟩ := fixViolation_rep fuel hkl ra
        (show RB (node true leaf n leaf) 0 from ⟨rfl, rfl, rfl, rfl⟩) gm
      refine ⟨h', hins.trans e', ?_, f'.key.trans k0⟩
      refine insert_finish (k := R c l y :: k) (t' := t') (h0 := h0) ht hs hnd hn k1 k2 k3 k4 ho hi h3 h4 ?_ r' g' ?_
      · have fa : Frame h0 (setRight (setParent (setRed h0 n true) n (some y)) y (some n))
            (lids (R c l y :: k) ++ n :: rids (R c l y :: k)) := by
          refine ⟨fun z hz => ?_, rfl, rfl, rfl⟩
          simp only [lids, rids, List.mem_append, List.mem_cons, not_or] at hz
          simp [setRight, setParent, setRed, upd, hz]
        exact fa.trans (f'.cast (by simp [ids, T.toList]))
      · simpa [ids, lids, rids, T.toList] using i'

theorem insert_inv {h S n fuel} (hi : Inv h.key h S) (hn : n ∉ S) (hf : S.length + 1 ≤ fuel) :
    ∃ h', insert fuel h n = some h' ∧ Inv h'.key h' (n :: S) ∧ h'.key = h.key := by
  obtain ⟨hnd, t, ht, hs⟩ := hi
  have hlen := tree_len hnd ht hs
  obtain ⟨h', e1, e2, e3⟩ := insert_gen (fuel := fuel) hnd ht hs hn hf (by
    intro c l x r e hr
    exact descend_spec (h := cleared h n) (K := h.key n) (fuel := fuel) e hr (by simp [lids]) (by simp [rids])
      ht.sorted (by omega))
  exact ⟨h', e1, e3 ▸ e2, e3⟩

/-- The search for the place ends whatever the keys are. -/
theorem descend_free {h K} : ∀ {t k fuel c l x r}, t = node c l x r → Rep h k t →
    t.toList.length ≤ fuel →
    (∃ z ∈ t.toList, h.key z = K ∧ descend fuel h K x = some (z, .eq)) ∨
    (∃ k' c y r, plug (L c y r :: k') leaf = plug k t ∧ descend fuel h K x = some (y, .lt)) ∨
    (∃ k' c y l, plug (R c l y :: k') leaf = plug k t ∧ descend fuel h K x = some (y, .gt))
  | leaf, _, _, _, _, _, _, e, _, _ => by cases e
  | node c l x r, k, 0, _, _, _, _, e, hr, hf => by simp [T.toList] at hf
  | node c l x r, k, fuel + 1, _, _, _, _, e, hr, hf => by
    cases e
    have fx := hr.fields
    rcases Nat.lt_trichotomy K (h.key x) with hc | hc | hc
    · have hcmp : compare K (h.key x) = .lt := Nat.compare_eq_lt.2 hc
      cases l with
      | leaf =>
        refine Or.inr (Or.inl ⟨k, c, x, r, rfl, ?_⟩)
        simp [descend, hcmp, fx, rootp]
      | node d a y b =>
        have := descend_free (K := K) (t := node d a y b) (fuel := fuel) rfl (Rep_left.2 hr)
          (by simp [T.toList] at hf ⊢; omega)
        have hd : descend (fuel + 1) h K x = descend fuel h K y := by
          simp [descend, hcmp, fx, rootp]
        rw [hd]
        rcases this with ⟨z, hz, h3, h4⟩ | h3 | h3
        · exact Or.inl ⟨z, by simp only [T.toList, List.mem_append, List.mem_cons] at hz ⊢; grind, h3, h4⟩
        · exact Or.inr (Or.inl h3)
        · exact Or.inr (Or.inr h3)
    · left
      refine ⟨x, by simp [T.toList], hc.symm, ?_⟩
      simp [descend, hc]
    · have hcmp : compare K (h.key x) = .gt := Nat.compare_eq_gt.2 hc
      cases r with
      | leaf =>
        refine Or.inr (Or.inr ⟨k, c, x, l, rfl, ?_⟩)
        simp [descend, hcmp, fx, rootp]
      | node d a y b =>
        have := descend_free (K := K) (t := node d a y b) (fuel := fuel) rfl (Rep_right.2 hr)
          (by simp [T.toList] at hf ⊢; omega)
        have hd : descend (fuel + 1) h K x = descend fuel h K y := by
          simp [descend, hcmp, fx, rootp]
        rw [hd]
        rcases this with ⟨z, hz, h3, h4⟩ | h3 | h3
        · exact Or.inl ⟨z, by simp only [T.toList, List.mem_append, List.mem_cons] at hz ⊢; grind, h3, h4⟩
        · exact Or.inr (Or.inl h3)
        · exact Or.inr (Or.inr h3)

theorem TInv.embed {κ κ' : Nat → Nat} {h t} (ht : TInv κ h t)
    (hk : ∀ z, Holds h t z → κ' z = 2 * κ z + 1) : TInv κ' h t := by
  refine ⟨ht.rep, ht.good, ?_, ht.headT, ?_, ht.ndup⟩
  · refine ht.sorted.imp_of_mem ?_
    intro a b ha hb h1
    rw [hk a (Or.inl ha), hk b (Or.inl hb)]; omega
  · intro x hx d hd
    obtain ⟨a, b, c⟩ := ht.dups x hx d hd
    refine ⟨a, ?_, c⟩
    rw [hk x (Or.inl hx), hk d (Or.inr ⟨x, hx, hd⟩), b]

theorem gap {κ : Nat → Nat} : ∀ (A B : List Nat), (A ++ B).Pairwise (fun a b => κ a < κ b) →
    ∃ m, (∀ z ∈ A, 2 * κ z + 1 < 2 * m) ∧ (∀ z ∈ B, 2 * m < 2 * κ z + 1)
  | A, [], _ => by
    refine ⟨(A.map κ).sum + 1, fun z hz => ?_, by simp⟩
    have key : ∀ (l : List Nat), ∀ z ∈ l, κ z ≤ (l.map κ).sum := by
      intro l
      induction l with
      | nil => simp
      | cons a l ih =>
        intro z hz
        simp only [List.map_cons, List.sum_cons]
        rcases List.mem_cons.1 hz with rfl | hz
        · omega
        · have := ih z hz; omega
    have := key A z hz
    omega
  | A, b :: B, h => by
    rw [List.pairwise_append, List.pairwise_cons] at h
    refine ⟨κ b, fun z hz => ?_, fun z hz => ?_⟩
    · have := h.2.2 z hz b (by simp); omega
    · rcases List.mem_cons.1 hz with rfl | hz
      · omega
      · have := h.2.1.1 z hz; omega

/-- The pointers form a red-black tree with rings whatever the keys are; nodes of one ring agree
in `ρ`. -/
def SInv (ρ : Nat → Nat) (h : Heap) (S : List Nat) : Prop :=
  ∃ κ : Nat → Nat, Inv κ h S ∧ ∀ a ∈ S, ∀ b ∈ S, κ a = κ b → ρ a = ρ b

/-- A new node joins the ring of a node with its key, or it is alone in its ring. -/
theorem insert_struct {ρ h S n fuel} (hi : SInv ρ h S) (hn : n ∉ S) (hf : S.length + 1 ≤ fuel) :
    ∃ h', insert fuel h n = some h' ∧ h'.key = h.key ∧
      ((∃ z ∈ S, h.key z = h.key n ∧ SInv (upd ρ n (ρ z)) h' (n :: S)) ∨
        ∀ v, SInv (upd ρ n v) h' (n :: S)) := by
  obtain ⟨κ, ⟨hnd, t, ht, hs⟩, hr⟩ := hi
  have hlen := tree_len hnd ht hs
  have ne : ∀ z, Holds h t z → z ≠ n := by rintro z hz rfl; exact hn ((hs _).2 hz)
  have nS : ∀ z ∈ S, z ≠ n := by rintro z hz rfl; exact hn hz
  -- the order is extended by the place the new node gets
  have fin : ∀ κ' : Nat → Nat, (∀ z, z ≠ n → κ' z = 2 * κ z + 1) →
      (∀ c l x r, t = node c l x r → Rep (cleared h n) [] t →
        Outcome κ' (h.key n) fuel (cleared h n) t n x) →
      ∃ h', insert fuel h n = some h' ∧ h'.key = h.key ∧ ∀ v,
        (∀ z ∈ S, κ' z = κ' n → ρ z = v) → SInv (upd ρ n v) h' (n :: S) := by
    intro κ' hk ho
    obtain ⟨h', e1, e2, e3⟩ := insert_gen (κ := κ') hnd (ht.embed fun z hz => hk z (ne z hz)) hs hn hf ho
    refine ⟨h', e1, e3, fun v hk2 => ⟨κ', e2, ?_⟩⟩
    have un : ∀ z ∈ S, upd ρ n v z = ρ z := fun z hz => by simp [upd, nS z hz]
    have us : upd ρ n v n = v := by simp [upd]
    intro a ha b hb hab
    rcases List.mem_cons.1 ha with ha' | ha' <;> rcases List.mem_cons.1 hb with hb' | hb'
    · rw [ha', hb']
    · rw [ha'] at hab ⊢; rw [us, un b hb']; exact (hk2 b hb' hab.symm).symm
    · rw [hb'] at hab ⊢; rw [us, un a ha']; exact hk2 a ha' hab
    · rw [un a ha', un b hb']
      rw [hk a (nS a ha'), hk b (nS b hb')] at hab
      exact hr a ha' b hb' (by omega)
  have alone : ∀ κ' : Nat → Nat, (∀ z, z ≠ n → κ' z = 2 * κ z + 1) → (∀ z ∈ S, κ' z ≠ κ' n) →
      (∀ c l x r, t = node c l x r → Rep (cleared h n) [] t →
        Outcome κ' (h.key n) fuel (cleared h n) t n x) →
      ∃ h', insert fuel h n = some h' ∧ h'.key = h.key ∧
      ((∃ z ∈ S, h.key z = h.key n ∧ SInv (upd ρ n (ρ z)) h' (n :: S)) ∨
        ∀ v, SInv (upd ρ n v) h' (n :: S)) := by
    intro κ' hk hk2 ho
    obtain ⟨h', e1, e2, e3⟩ := fin κ' hk ho
    exact ⟨h', e1, e2, Or.inr fun v => e3 v fun z hz e => absurd e (hk2 z hz)⟩
  cases ht0 : t with
  | leaf =>
    subst ht0
    refine alone (fun z => if z = n then 0 else 2 * κ z + 1) (fun z hz => by simp [hz]) ?_ (by simp)
    intro z hz
    simp [nS z hz]
  | node c l x r =>
    by_cases hrep : Rep (cleared h n) [] t
    swap
    · exact alone (fun z => if z = n then 0 else 2 * κ z + 1) (fun z hz => by simp [hz])
        (fun z hz => by simp [nS z hz]) (fun _ _ _ _ _ h1 => absurd h1 hrep)
    have hd := descend_free (h := cleared h n) (K := h.key n) (fuel := fuel) ht0 hrep (by omega)
    have pos : ∀ k, t = plug k leaf → (∀ z ∈ lids k ++ rids k, Holds h t z) ∧
        (lids k ++ rids k).Pairwise (fun a b => κ a < κ b) := by
      intro k e
      have hi := ids_plug k leaf
      simp only [ids, lids, rids, T.toList, List.nil_append, List.append_nil] at hi
      rw [← e] at hi
      exact ⟨fun z hz => Or.inl (hi ▸ hz), hi ▸ ht.sorted⟩
    rcases hd with ⟨z, hz, h1, h2⟩ | ⟨k, c', y, r', h1, h2⟩ | ⟨k, c', y, l', h1, h2⟩
    · have hzS : z ∈ S := (hs z).2 (Or.inl hz)
      have hzn : z ≠ n := by rintro rfl; exact hn hzS
      obtain ⟨h', e1, e2, e3⟩ := fin (fun w => if w = n then 2 * κ z + 1 else 2 * κ w + 1)
        (fun w hw => by simp [hw]) (by
          intro c1 l1 x1 r1 e _
          rw [ht0] at e; cases e
          exact Or.inl ⟨z, hz, by simp [hzn], h2⟩)
      refine ⟨h', e1, e2, Or.inl ⟨z, hzS, h1, e3 _ ?_⟩⟩
      intro w hw e
      simp [nS w hw] at e
      exact hr w hw z hzS (by omega)
    · obtain ⟨p1, p2⟩ := pos (L c' y r' :: k) h1.symm
      obtain ⟨m, g1, g2⟩ := gap _ _ p2
      refine alone (fun w => if w = n then 2 * m else 2 * κ w + 1) (fun w hw => by simp [hw]) ?_ ?_
      · intro w hw
        simp [nS w hw]; omega
      · intro c1 l1 x1 r1 e _
        rw [ht0] at e; cases e
        refine Or.inr (Or.inl ⟨k, c', y, r', h1, h2, ?_, ?_⟩)
        · intro z hz
          have := ne z (p1 z (List.mem_append_left _ hz))
          simp [this, g1 z hz]
        · intro z hz
          have := ne z (p1 z (List.mem_append_right _ hz))
          simp [this, g2 z hz]
    · obtain ⟨p1, p2⟩ := pos (R c' l' y :: k) h1.symm
      obtain ⟨m, g1, g2⟩ := gap _ _ p2
      refine alone (fun w => if w = n then 2 * m else 2 * κ w + 1) (fun w hw => by simp [hw]) ?_ ?_
      · intro w hw
        simp [nS w hw]; omega
      · intro c1 l1 x1 r1 e _
        rw [ht0] at e; cases e
        refine Or.inr (Or.inr ⟨k, c', y, l', h1, h2, ?_, ?_⟩)
        · intro z hz
          have := ne z (p1 z (List.mem_append_left _ hz))
          simp [this, g1 z hz]
        · intro z hz
          have := ne z (p1 z (List.mem_append_right _ hz))
          simp [this, g2 z hz]

theorem remove_struct {ρ h S n fuel} (hi : SInv ρ h S) (hn : n ∈ S) (hf : S.length + 3 ≤ fuel) :
    ∃ h', remove fuel h n = some h' ∧ SInv ρ h' (S.erase n) ∧ h'.key = h.key := by
  obtain ⟨κ, hi, hr⟩ := hi
  obtain ⟨h', e1, e2, e3⟩ := remove_inv hi hn hf
  exact ⟨h', e1, ⟨κ, e2, fun a ha b hb => hr a (List.mem_of_mem_erase ha) b (List.mem_of_mem_erase hb)⟩, e3⟩

/-! ## Search -/

theorem findLoop_spec {h K} : ∀ {t k fuel}, Rep h k t →
    t.toList.Pairwise (fun a b => h.key a < h.key b) → t.toList.length < fuel →
    (∃ z ∈ t.toList, h.key z = K ∧ findLoop fuel h K (rootp t) = some (some z)) ∨
    ((∀ z ∈ t.toList, h.key z ≠ K) ∧ findLoop fuel h K (rootp t) = some none)
  | t, _, 0, _, _, hf => by omega
  | leaf, _, fuel + 1, _, _, _ => Or.inr ⟨by simp [T.toList], rfl⟩
  | node c l x r, k, fuel + 1, hr, hs, hf => by
    have fx := hr.fields
    simp only [T.toList, List.pairwise_append, List.pairwise_cons, List.mem_cons] at hs
    obtain ⟨s1, ⟨s2, s3⟩, s4⟩ := hs
    rcases Nat.lt_trichotomy K (h.key x) with hc | hc | hc
    · have hcmp : compare K (h.key x) = .lt := Nat.compare_eq_lt.2 hc
      have hd : findLoop (fuel + 1) h K (rootp (node c l x r)) = findLoop fuel h K (rootp l) := by
        simp [findLoop, hcmp, fx, rootp_node]
      rw [hd]
      rcases findLoop_spec (K := K) (fuel := fuel) (Rep_left.2 hr) s1
        (by simp [T.toList] at hf ⊢; omega) with ⟨z, hz, h1, h2⟩ | ⟨h1, h2⟩
      · exact Or.inl ⟨z, by simp [T.toList, hz], h1, h2⟩
      · refine Or.inr ⟨?_, h2⟩
        intro z hz
        simp only [T.toList, List.mem_append, List.mem_cons] at hz
        rcases hz with hz | rfl | hz
        · exact h1 z hz
        · omega
        · have := s2 z hz; omega
    · left
      refine ⟨x, by simp [T.toList], hc.symm, ?_⟩
      simp [findLoop, hc, rootp_node]
    · have hcmp : compare K (h.key x) = .gt := Nat.compare_eq_gt.2 hc
      have hd : findLoop (fuel + 1) h K (rootp (node c l x r)) = findLoop fuel h K (rootp r) := by
        simp [findLoop, hcmp, fx, rootp_node]
      rw [hd]
      rcases findLoop_spec (K := K) (fuel := fuel) (Rep_right.2 hr) s3
        (by simp [T.toList] at hf ⊢; omega) with ⟨z, hz, h1, h2⟩ | ⟨h1, h2⟩
      · exact Or.inl ⟨z, by simp [T.toList, hz], h1, h2⟩
      · refine Or.inr ⟨?_, h2⟩
        intro z hz
        simp only [T.toList, List.mem_append, List.mem_cons] at hz
        rcases hz with hz | rfl | hz
        · have := s4 z hz x (Or.inl rfl); omega
        · omega
        · exact h1 z hz

theorem find_inv {h S K fuel} (pick : Nat → List Nat → Option Nat) (hi : Inv h.key h S)
    (hf : S.length < fuel) :
    (∃ z ds, z ∈ S ∧ h.key z = K ∧ (∀ d, d ∈ z :: ds ↔ d ∈ S ∧ h.key d = K) ∧ (z :: ds).Nodup ∧
      find fuel h pick K = some (if ds = [] then some z else pick z ds)) ∨
    ((∀ z ∈ S, h.key z ≠ K) ∧ find fuel h pick K = some none) := by
  obtain ⟨hnd, t, ht, hs⟩ := hi
  have hlen := tree_len hnd ht hs
  have hr := ht.rep.root
  rcases findLoop_spec (K := K) (fuel := fuel) ht.rep ht.sorted (by omega) with ⟨z, hz, h1, h2⟩ | ⟨h1, h2⟩
  · left
    rw [← hr] at h2
    have huniq : ∀ w ∈ t.toList, h.key w = K → w = z := by
      intro w hw e
      by_contra hne
      have hp := ht.sorted
      have := List.Pairwise.forall_of_forall_of_flip (R := fun a b => a = b ∨ h.key a ≠ h.key b)
        (l := t.toList) (fun x _ => Or.inl rfl) (hp.imp fun h => Or.inr (by omega))
        (hp.imp fun h => Or.inr (by omega)) hw hz
      rcases this with h3 | h3
      · exact hne h3
      · exact h3 (e.trans h1.symm)
    refine ⟨z, h.dups z, (hs z).2 (Or.inl hz), h1, ?_, ?_, ?_⟩
    · intro d
      rw [List.mem_cons, hs d]
      constructor
      · rintro (rfl | hd)
        · exact ⟨Or.inl hz, h1⟩
        · exact ⟨Or.inr ⟨z, hz, hd⟩, by rw [(ht.dups z hz d hd).2.1, h1]⟩
      · rintro ⟨hd | ⟨x, hx, hd⟩, e⟩
        · exact Or.inl (huniq d hd e)
        · have := (ht.dups x hx d hd).2.1
          have := huniq x hx (by omega)
          subst this
          exact Or.inr hd
    · exact List.nodup_cons.2 ⟨fun h3 => (ht.dups z hz z h3).1 hz, ht.ndup z hz⟩
    · simp only [find, h2, listEmpty, ht.headT z hz, Option.isNone_none, Bool.and_true]
      cases h.dups z with
      | nil => simp
      | cons a b => simp
  · right
    rw [← hr] at h2
    refine ⟨?_, by simp [find, h2]⟩
    intro z hz e
    rcases (hs z).1 hz with h3 | ⟨x, hx, h3⟩
    · exact h1 z h3 e
    · exact h1 x hx (by rw [← (ht.dups x hx z h3).2.1, e])

/-! ## Height -/

def T.height : T → Nat
  | leaf => 0
  | node _ l _ r => max l.height r.height + 1

/-- `findLoop_spec` with the height as the bound. -/
theorem findLoop_height {h K v} : ∀ {t k fuel fuel'}, Rep h k t → t.height < fuel →
    findLoop fuel' h K (rootp t) = some v → findLoop fuel h K (rootp t) = some v
  | t, _, 0, _, _, hf, _ => by omega
  | t, _, fuel + 1, 0, _, _, he => by simp [findLoop] at he
  | leaf, _, fuel + 1, fuel' + 1, _, _, he => he
  | node c l x r, k, fuel + 1, fuel' + 1, hr, hf, he => by
    have fx := hr.fields
    simp only [T.height] at hf
    simp only [findLoop, rootp_node, fx] at he ⊢
    cases hc : compare K (h.key x) with
    | lt => rw [hc] at he; exact findLoop_height (Rep_left.2 hr) (by omega) he
    | eq => rw [hc] at he; exact he
    | gt => rw [hc] at he; exact findLoop_height (Rep_right.2 hr) (by omega) he

theorem RB_height : ∀ {t n}, RB t n →
    t.height ≤ 2 * n + (if rootRed t then 1 else 0) ∧ 2 ^ n ≤ t.toList.length + 1
  | leaf, n, h => by simp only [RB] at h; subst h; simp [T.height, T.toList]
  | node true l x r, n, h => by
    simp only [RB] at h
    obtain ⟨h1, h2, h3, h4⟩ := h
    have a := RB_height h1
    have b := RB_height h2
    rw [h3] at a
    rw [h4] at b
    simp [T.height, T.toList, rootRed_node] at a b ⊢
    omega
  | node false l x r, 0, h => by simp [RB] at h
  | node false l x r, n + 1, h => by
    simp only [RB] at h
    obtain ⟨h1, h2⟩ := h
    have a := RB_height h1
    have b := RB_height h2
    have c1 : (if rootRed l then 1 else 0) ≤ 1 := by split <;> omega
    have c2 : (if rootRed r then 1 else 0) ≤ 1 := by split <;> omega
    refine ⟨?_, ?_⟩
    · simp [T.height, rootRed_node]; omega
    · simp [T.toList, Nat.pow_succ]; omega

theorem Good_height {t} (h : Good [] t) : t.height ≤ 2 * Nat.log2 (t.toList.length + 1) := by
  obtain ⟨n, _, h1, h2⟩ := h
  obtain ⟨a, b⟩ := RB_height h1
  have c : rootRed t = false := by
    cases hc : rootRed t
    · rfl
    · simp [hc, pcol] at h2
  rw [c] at a
  have : n ≤ Nat.log2 (t.toList.length + 1) := (Nat.le_log2 (by omega)).2 b
  simp at a
  omega

/-! ## Change of a key in place -/

theorem passes_spec {h K n} : ∀ {t k fuel}, Rep h k t →
    t.toList.Pairwise (fun a b => h.key a < h.key b) → passes fuel h K n (rootp t) = some true →
    ∃ j c l r, t = plug j (node c l n r) ∧ ∀ z ∈ rids j, K < h.key z
  | t, _, 0, _, _, hf => by simp [passes] at hf
  | leaf, _, fuel + 1, _, _, hf => by simp [passes, rootp] at hf
  | node c l x r, k, fuel + 1, hr, hs, hf => by
    have fx := hr.fields
    simp only [T.toList, List.pairwise_append, List.pairwise_cons, List.mem_cons] at hs
    obtain ⟨s1, ⟨s2, s3⟩, s4⟩ := hs
    simp only [passes, rootp_node, fx] at hf
    split at hf
    · next e => subst e; exact ⟨[], c, l, r, rfl, by simp [rids]⟩
    · split at hf
      · next hc =>
        rw [Nat.compare_eq_lt] at hc
        obtain ⟨j, c', l', r', e, h1⟩ := passes_spec (Rep_left.2 hr) s1 hf
        refine ⟨j ++ [L c x r], c', l', r', by rw [plug_append, ← e]; rfl, ?_⟩
        intro z hz
        simp only [rids_append, rids, List.append_nil, List.mem_append, List.mem_cons] at hz
        rcases hz with hz | rfl | hz
        · exact h1 z hz
        · exact hc
        · have := s2 z hz; omega
      · obtain ⟨j, c', l', r', e, h1⟩ := passes_spec (Rep_right.2 hr) s3 hf
        refine ⟨j ++ [R c l x], c', l', r', by rw [plug_append, ← e]; rfl, ?_⟩
        intro z hz
        simp only [rids_append, rids, List.append_nil] at hz
        exact h1 z hz

theorem sorted_upd {key : Nat → Nat} {A B : List Nat} {n K : Nat}
    (hs : (A ++ n :: B).Pairwise (fun a b => key a < key b)) (hA : n ∉ A) (hB : n ∉ B)
    (hK : key n ≤ K) (hr : ∀ z ∈ B, K < key z) :
    (A ++ n :: B).Pairwise (fun a b => upd key n K a < upd key n K b) := by
  have hne : ∀ z, z ≠ n → upd key n K z = key z := fun z hz => by simp [upd, hz]
  have hnK : upd key n K n = K := by simp [upd]
  have e1 : ∀ L : List Nat, n ∉ L → L.Pairwise (fun a b => key a < key b) →
      L.Pairwise (fun a b => upd key n K a < upd key n K b) := by
    intro L hL hp
    refine hp.imp_of_mem ?_
    intro a b ha hb h1
    rwa [hne a (by rintro rfl; exact hL ha), hne b (by rintro rfl; exact hL hb)]
  rw [List.pairwise_append, List.pairwise_cons] at hs ⊢
  refine ⟨e1 A hA hs.1, ⟨?_, e1 B hB hs.2.1.2⟩, ?_⟩
  · intro z hz
    rw [hnK, hne z (by rintro rfl; exact hB hz)]; exact hr z hz
  · intro a ha b hb
    rw [hne a (by rintro rfl; exact hA ha)]
    rcases List.mem_cons.1 hb with rfl | hb'
    · rw [hnK]; have := hs.2.2 a ha b (by simp); omega
    · rw [hne b (by rintro rfl; exact hB hb')]; exact hs.2.2 a ha b (by simp [hb'])

theorem canUpdate_inv {h S n K fuel} (hi : Inv h.key h S) (hn : n ∈ S) (hK : h.key n ≤ K)
    (hf : S.length ≤ fuel) (hc : canUpdate fuel h n K = some true) :
    Inv (upd h.key n K) { h with key := upd h.key n K } S := by
  obtain ⟨hnd, t, ht, hs⟩ := hi
  have hlen := tree_len hnd ht hs
  unfold canUpdate at hc
  split at hc
  · cases hc
  · next hle =>
    simp only [listEmpty, Bool.not_eq_true, Bool.not_eq_false', Bool.and_eq_true,
      List.isEmpty_iff, Option.isNone_iff_eq_none] at hle
    have hnt : n ∈ t.toList := by
      rcases (hs n).1 hn with h1 | ⟨x, hx, h1⟩
      · exact h1
      · have := (ht.dups x hx n h1).2.2.1; rw [hle.2] at this; cases this
    split at hc
    · cases hc
    · cases hc
    · next hp =>
      rw [ht.rep.root] at hp
      obtain ⟨j, c, l, r, e, hj⟩ := passes_spec ht.rep ht.sorted hp
      have hr : Rep h j (node c l n r) := Rep_plug.1 (e ▸ ht.rep)
      have hids := ids_plug j (node c l n r)
      rw [← e] at hids
      simp only [ids, lids, rids, List.nil_append, List.append_nil, T.toList] at hids
      have hso := ht.sorted
      rw [hids] at hso
      have hndt := ht.rep.nodup
      simp only [ids, lids, rids, List.nil_append, List.append_nil] at hndt
      rw [hids] at hndt
      have hright : ∀ z ∈ r.toList, K < h.key z := by
        have fx := hr.fields
        rcases Nat.lt_trichotomy K (h.key n) with hcmp | hcmp | hcmp
        · omega
        · intro z hz
          simp only [List.pairwise_append, List.pairwise_cons, List.mem_append, List.mem_cons] at hso
          rw [hcmp]
          exact hso.2.1.1.2.1.1 z hz
        · rw [Nat.compare_eq_gt.2 hcmp] at hc
          simp only [fx] at hc
          cases hr0 : r with
          | leaf => simp [T.toList]
          | node d a y b =>
            rw [hr0] at hc
            simp only [rootp_node, Option.map_eq_some_iff] at hc
            obtain ⟨s, hl, hc⟩ := hc
            simp only [decide_eq_true_eq] at hc
            have hlen2 : r.toList.length ≤ fuel := by
              have := congrArg List.length hids
              simp at this; omega
            obtain ⟨i, d', y', s', e1, e2, e3, _⟩ := leftmost_rep hr0 (Rep_right.2 hr) hlen2
            rw [hl] at e1
            cases e1
            rw [← hr0]
            have hrl : r.toList = s :: (s'.toList ++ rids i) := by
              have := ids_plug i (node d' leaf s s')
              rw [← e2] at this
              simpa [ids, lids, rids, T.toList, e3] using this
            intro z hz
            simp only [List.pairwise_append, List.pairwise_cons, List.mem_append, List.mem_cons] at hso
            have h2 := hso.2.1.1.2.1.2
            rw [hrl] at h2 hz
            rcases List.mem_cons.1 hz with rfl | hz
            · exact hc
            · have := (List.pairwise_cons.1 h2).1 z hz; omega
      have hne : ∀ z, z ≠ n → upd h.key n K z = h.key z := fun z hz => by simp [upd, hz]
      have hnK : upd h.key n K n = K := by simp [upd]
      have hrep2 : Rep { h with key := upd h.key n K } [] t := by
        obtain ⟨⟨q, p, h1, h2⟩, h3⟩ := ht.rep
        exact ⟨⟨q, p, h1, Repr_congr (h := h) (fun _ _ => ⟨rfl, rfl, rfl, rfl⟩) h2⟩, h3⟩
      refine ⟨hnd, t, ⟨hrep2, ht.good, ?_, ht.headT, ?_, ht.ndup⟩, hs⟩
      · have hnin : n ∉ lids j ∧ n ∉ l.toList ∧ n ∉ r.toList ∧ n ∉ rids j := by
          have := hr.ne; exact ⟨this.2.2.1, this.1, this.2.1, this.2.2.2⟩
        rw [hids]
        have e1 : lids j ++ ((l.toList ++ n :: r.toList) ++ rids j) =
            (lids j ++ l.toList) ++ n :: (r.toList ++ rids j) := by simp
        rw [e1] at hso ⊢
        refine sorted_upd hso (by simp [hnin]) (by simp [hnin]) hK ?_
        intro z hz
        rcases List.mem_append.1 hz with hz | hz
        · exact hright z hz
        · exact hj z hz
      · intro x hx d hd
        obtain ⟨a1, a2, a3⟩ := ht.dups x hx d hd
        refine ⟨a1, ?_, a3⟩
        have hxn : x ≠ n := by rintro rfl; rw [hle.1] at hd; cases hd
        have hdn : d ≠ n := by rintro rfl; exact a1 hnt
        rw [hne x hxn, hne d hdn, a2]

end Verif.RbTree
