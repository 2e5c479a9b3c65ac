import Verif.Lemma.RbSwap

/-! # Insertion and removal at the level of the represented tree -/

namespace Verif.RbTree

open T Fr

theorem plug_append : ∀ (j k : List Fr) (t : T), plug (j ++ k) t = plug k (plug j t)
  | [], k, t => rfl
  | L c x r :: j, k, t => by simp only [List.cons_append, plug]; exact plug_append j k _
  | R c l x :: j, k, t => by simp only [List.cons_append, plug]; exact plug_append j k _

theorem length_ctx : ∀ (k : List Fr), k.length ≤ (lids k ++ rids k).length
  | [] => by simp
  | L c x r :: k => by have := length_ctx k; simp [lids, rids] at this ⊢; omega
  | R c l x :: k => by have := length_ctx k; simp [lids, rids] at this ⊢; omega

theorem length_ids (k : List Fr) (t : T) : k.length + t.toList.length ≤ (ids k t).length := by
  have := length_ctx k; simp [ids] at this ⊢; omega

/-- Removing the tree from a place. -/
theorem detach {h k c x} (hr : Rep h k (node c leaf x leaf)) :
    Rep (updateParent h (h.parent x) x none) k leaf ∧
    Frame h (updateParent h (h.parent x) x none) (ids k (node c leaf x leaf)) := by
  have hn := hr.ne
  have hnd := hr.nodup
  obtain ⟨⟨q, p, h1, h2⟩, _⟩ := hr
  simp only [Repr] at h2
  obtain ⟨rfl, h3, _⟩ := h2
  have hkn : (lids k ++ rids k).Nodup := by
    simp only [ids, T.toList, List.nil_append] at hnd
    exact hnd.sublist (by simp)
  rw [h3]
  refine ⟨⟨⟨none, p, ReprC_update none (by simp [hn]) hkn h1, rfl⟩, ?_⟩, ?_⟩
  · simpa [ids, T.toList] using hkn
  · refine ⟨fun z hz => ?_, updateParent_key _ _ _ _, updateParent_dups _ _ _ _, updateParent_head _ _ _ _⟩
    have hp : p ≠ some z := by
      intro e
      have := ReprC_parent h1 z e
      apply hz
      simp only [ids, List.mem_append] at this ⊢
      grind
    exact ⟨updateParent_left _ _ _ _ _ hp, updateParent_right _ _ _ _ _ hp, by rw [updateParent_parent]⟩

theorem Good_leaf_ctx {k} (hg : RBC k 0) : Good k leaf := ⟨0, hg, rfl, by simp [rootRed]⟩

/-- The end of a removal: repair for a black leaf, then the leaf is cut off. -/
theorem finish {h k c x fuel} (hf : k.length < fuel) (hr : Rep h k (node c leaf x leaf))
    (hg : Good k (node c leaf x leaf)) :
    ∃ h' t', ((if !h.red x then fixDoubleBlack fuel h x else some h).map
        fun h => updateParent h (h.parent x) x none) = some h' ∧ Rep h' [] t' ∧ Good [] t' ∧
      t'.toList = lids k ++ rids k ∧ Frame h h' (ids k (node c leaf x leaf)) := by
  obtain ⟨n, g1, g2, g3⟩ := hg
  cases c with
  | true =>
    simp only [RB] at g2
    obtain ⟨rfl, _⟩ := g2
    obtain ⟨r1, f1⟩ := detach hr
    refine ⟨_, plug k leaf, ?_, Rep_plug.2 r1, (Good_plug _ _).2 (Good_leaf_ctx g1), ?_, f1⟩
    · simp [hr.fields.1]
    · have := ids_plug k leaf; simpa [ids, lids, rids, T.toList] using this
  | false =>
    cases n with
    | zero => simp [RB] at g2
    | succ n =>
      simp only [RB] at g2
      obtain ⟨rfl, _⟩ := g2
      obtain ⟨h1, k1, e1, r1, rb1, l1, l2, _, f1⟩ := fixDoubleBlack_rep fuel hf hr g1
      obtain ⟨r2, f2⟩ := detach r1
      refine ⟨_, plug k1 leaf, ?_, Rep_plug.2 r2, (Good_plug _ _).2 (Good_leaf_ctx rb1), ?_, f1.trans ?_⟩
      · simp [hr.fields.1, e1]
      · have := ids_plug k1 leaf; simpa [ids, lids, rids, T.toList, l1, l2] using this
      · exact f2.cast (by simp [ids, l1, l2])

theorem RB_zero {t} (h : RB t 0) (hb : rootRed t = false) : t = leaf := by
  cases t with
  | leaf => rfl
  | node c l x r => simp only [rootRed] at hb; subst hb; simp [RB] at h

theorem RB_zero' {t} (h : RB t 0) : t = leaf ∨ ∃ x, t = node true leaf x leaf := by
  cases t with
  | leaf => exact Or.inl rfl
  | node c l x r =>
    cases c with
    | false => simp [RB] at h
    | true =>
      simp only [RB] at h
      rw [RB_zero h.1 h.2.2.1, RB_zero h.2.1 h.2.2.2]
      exact Or.inr ⟨x, rfl⟩

theorem one_left {c l x} {n : Nat} (h : RB (node c l x leaf) n) (hl : l ≠ leaf) :
    c = false ∧ ∃ y, l = node true leaf y leaf := by
  cases c with
  | true =>
    simp only [RB] at h
    obtain ⟨h1, rfl, h2, h3⟩ := h
    exact absurd (RB_zero h1 h2) hl
  | false =>
    cases n with
    | zero => simp [RB] at h
    | succ n =>
      simp only [RB] at h
      obtain ⟨h1, rfl⟩ := h
      exact ⟨rfl, (RB_zero' h1).resolve_left hl⟩

theorem one_right {c r x} {n : Nat} (h : RB (node c leaf x r) n) (hl : r ≠ leaf) :
    c = false ∧ ∃ y, r = node true leaf y leaf := by
  cases c with
  | true =>
    simp only [RB] at h
    obtain ⟨rfl, h1, h2, h3⟩ := h
    exact absurd (RB_zero h1 h3) hl
  | false =>
    cases n with
    | zero => simp [RB] at h
    | succ n =>
      simp only [RB] at h
      obtain ⟨rfl, h1⟩ := h
      exact ⟨rfl, (RB_zero' h1).resolve_left hl⟩

/-- The leftmost node. -/
theorem leftmost_rep {h} : ∀ {t k fuel c l x r}, t = node c l x r → Rep h k t →
    t.toList.length ≤ fuel →
    ∃ j d y s, leftmost fuel h x = some y ∧ t = plug j (node d leaf y s) ∧ lids j = [] ∧
      j.length < t.toList.length ∧ (j = [] ∨ ∃ w, par j = some w ∧ w ∈ t.toList)
  | leaf, _, _, _, _, _, _, e, _, _ => by cases e
  | node c l x r, k, 0, _, _, _, _, e, hr, hf => by simp [T.toList] at hf
  | node c leaf x r, k, fuel + 1, _, _, _, _, e, hr, hf => by
    cases e
    refine ⟨[], c, x, r, ?_, rfl, rfl, by simp [T.toList], Or.inl rfl⟩
    simp [leftmost, hr.fields, rootp]
  | node c (node d a y b) x r, k, fuel + 1, _, _, _, _, e, hr, hf => by
    cases e
    obtain ⟨j, e, z, s, h1, h2, h3, h4, h5⟩ := leftmost_rep (t := node d a y b) (fuel := fuel) rfl
      (Rep_left.2 hr) (by simp [T.toList] at hf ⊢; omega)
    refine ⟨j ++ [L c x r], e, z, s, ?_, ?_, ?_, ?_, Or.inr ?_⟩
    · simp only [leftmost, hr.fields, rootp]; exact h1
    · rw [plug_append, ← h2]; rfl
    · have : ∀ j, lids j = [] → lids (j ++ [L c x r]) = [] := by
        intro j
        induction j with
        | nil => intro _; rfl
        | cons f j ih =>
          cases f with
          | L => intro e; exact ih e
          | R => intro e; simp [lids] at e
      exact this j h3
    · simp [T.toList] at h4 ⊢; omega
    · rcases h5 with rfl | ⟨w, h5, h6⟩
      · exact ⟨x, rfl, by simp [T.toList]⟩
      · refine ⟨w, ?_, by simp [T.toList] at h6 ⊢; grind⟩
        cases j with
        | nil => simp [par] at h5
        | cons f j => cases f <;> exact h5

theorem rename_id {f : Nat → Nat} : ∀ {t : T}, (∀ z ∈ t.toList, f z = z) → t.rename f = t
  | leaf, _ => rfl
  | node c l x r, h => by
    rw [T.rename, h x (by simp [T.toList]), rename_id (fun z hz => h z (by simp [T.toList, hz])),
      rename_id (fun z hz => h z (by simp [T.toList, hz]))]

theorem rename_plug {f : Nat → Nat} : ∀ {k : List Fr} {t : T}, (∀ z ∈ lids k ++ rids k, f z = z) →
    (plug k t).rename f = plug k (t.rename f)
  | [], t, _ => rfl
  | L c x r :: k, t, h => by
    rw [plug, rename_plug (fun z hz => h z (by simp [lids, rids] at hz ⊢; grind)), plug, T.rename,
      h x (by simp [rids]), rename_id (t := r) (fun z hz => h z (by simp [rids, hz]))]
  | R c l x :: k, t, h => by
    rw [plug, rename_plug (fun z hz => h z (by simp [lids, rids] at hz ⊢; grind)), plug, T.rename,
      h x (by simp [lids]), rename_id (t := l) (fun z hz => h z (by simp [lids, hz]))]

theorem swap_at {h k t x y} (hr : Rep h k t) (hx : x ∈ t.toList) (hy : y ∈ t.toList) (hxy : x ≠ y)
    (hpp : h.parent x ≠ h.parent y) :
    Rep (swap h x y) k (t.rename (sw x y)) ∧ Frame h (swap h x y) (ids k t) := by
  have hi := ids_plug k t
  simp only [ids, lids, rids, List.nil_append, List.append_nil] at hi
  have hn := hr.nodup
  simp only [ids, List.nodup_append, List.mem_append] at hn
  obtain ⟨r1, f1⟩ := swap_rep (Rep_plug.2 hr) (by rw [hi]; simp [hx]) (by rw [hi]; simp [hy]) hxy
    (Or.inr hpp)
  rw [rename_plug] at r1
  · exact ⟨Rep_plug.1 r1, f1.cast hi⟩
  · intro z hz
    have h1 : z ≠ x := by rintro rfl; simp only [List.mem_append] at hz; grind
    have h2 : z ≠ y := by rintro rfl; simp only [List.mem_append] at hz; grind
    simp [sw, h1, h2]

theorem par_mem : ∀ {k w}, par k = some w → w ∈ lids k ++ rids k
  | [], w, h => by simp [par] at h
  | L c x r :: k, w, h => by simp [par] at h; simp [rids, h]
  | R c l x :: k, w, h => by simp [par] at h; simp [lids, h]

theorem Frame.sub {h h' S S'} (f : Frame h h' S) (e : ∀ z, z ∈ S → z ∈ S') : Frame h h' S' :=
  ⟨fun z hz => f.out z (fun h => hz (e z h)), f.key, f.dups, f.head⟩

theorem Good_rename {f k t} : Good k (T.rename f t) ↔ Good k t := by
  simp only [Good, RB_rename, rootRed_rename]

/-- What a removal must achieve. -/
def Removed (h : Heap) (S : List Nat) (A : List Nat) (h? : Option Heap) : Prop :=
  ∃ h' t', h? = some h' ∧ Rep h' [] t' ∧ Good [] t' ∧ t'.toList = A ∧ Frame h h' S

theorem remove_left {h k x y fuel} (hf : k.length + 1 < fuel)
    (hr : Rep h k (node false (node true leaf y leaf) x leaf))
    (hg : Good k (node false (node true leaf y leaf) x leaf)) :
    Removed h (ids k (node false (node true leaf y leaf) x leaf)) (lids k ++ y :: rids k)
      (removeLoop (fuel + 1) h x) := by
  have fx := hr.fields
  have fy := (Rep_left.2 hr).fields
  simp only [rootp, par] at fx fy
  have hxy : x ≠ y := by have := hr.ne; simp [T.toList] at this; grind
  obtain ⟨r1, f1⟩ := swap_at (x := x) (y := y) hr (by simp [T.toList]) (by simp [T.toList]) hxy (by
    rw [fy.2.2.2]
    intro e
    have := par_mem (fx.2.2.2.symm.trans e)
    have := hr.ne
    simp at *; grind)
  have g1 := (Good_rename (f := sw x y)).2 hg
  simp only [T.rename, sw, if_true, if_neg (Ne.symm hxy)] at r1 g1
  obtain ⟨h', t', e, r2, g2, i2, f2⟩ := finish (fuel := fuel) (by simpa using hf) (Rep_left.2 r1)
    (Good_left.2 g1)
  refine ⟨h', t', ?_, r2, g2, ?_, f1.trans (f2.sub ?_)⟩
  · simp only [removeLoop, replacement, fx, fy, and_self, if_true]
    exact e
  · rw [i2]; simp [lids, rids, T.toList]
  · intro z hz; simp [ids, lids, rids, T.toList] at hz ⊢; grind

theorem remove_right {h k x y fuel} (hf : k.length + 1 < fuel)
    (hr : Rep h k (node false leaf x (node true leaf y leaf)))
    (hg : Good k (node false leaf x (node true leaf y leaf))) :
    Removed h (ids k (node false leaf x (node true leaf y leaf))) (lids k ++ y :: rids k)
      (removeLoop (fuel + 1) h x) := by
  have fx := hr.fields
  have fy := (Rep_right.2 hr).fields
  simp only [rootp, par] at fx fy
  have hxy : x ≠ y := by have := hr.ne; simp [T.toList] at this; grind
  obtain ⟨r1, f1⟩ := swap_at (x := x) (y := y) hr (by simp [T.toList]) (by simp [T.toList]) hxy (by
    rw [fy.2.2.2]
    intro e
    have := par_mem (fx.2.2.2.symm.trans e)
    have := hr.ne
    simp at *; grind)
  have g1 := (Good_rename (f := sw x y)).2 hg
  simp only [T.rename, sw, if_true, if_neg (Ne.symm hxy)] at r1 g1
  obtain ⟨h', t', e, r2, g2, i2, f2⟩ := finish (fuel := fuel) (by simpa using hf) (Rep_right.2 r1)
    (Good_right.2 g1)
  refine ⟨h', t', ?_, r2, g2, ?_, f1.trans (f2.sub ?_)⟩
  · simp only [removeLoop, replacement, fx, fy, and_self, if_true]
    exact e
  · rw [i2]; simp [lids, rids, T.toList]
  · intro z hz; simp [ids, lids, rids, T.toList] at hz ⊢; grind

theorem setRed_sibling {h f k c x} (hr : Rep h (f :: k) (node c leaf x leaf))
    (hc : RBC (f :: k) 0) (s) (hs : sibling h x = some s) :
    Rep (setRed h s true) (f :: k) (node c leaf x leaf) := by
  cases f with
  | L d p sib =>
    have hp := Rep_left.1 hr
    have fx := hr.fields
    have fp := hp.fields
    have h0 : RB sib 0 := by cases d <;> exact hc.1
    simp only [sibling, fx, par, fp, rootp_node, if_true] at hs
    rcases RB_zero' h0 with rfl | ⟨y, rfl⟩
    · simp [rootp] at hs
    · simp only [rootp_node, Option.some.injEq] at hs
      subst hs
      exact Rep_left.2 (Rep_right.1 (setRed_rep true (Rep_right.2 hp)))
  | R d sib p =>
    have hp := Rep_right.1 hr
    have fx := hr.fields
    have fp := hp.fields
    have h0 : RB sib 0 := by cases d <;> exact hc.1
    rcases RB_zero' h0 with rfl | ⟨y, rfl⟩
    · simp [sibling, fx, par, fp, rootp] at hs
    · have hxy : x ≠ y := by have := hr.ne; simp [T.toList, lids] at this; grind
      simp [sibling, fx, par, fp, rootp, Ne.symm hxy] at hs
      subst hs
      exact Rep_right.2 (Rep_left.1 (setRed_rep true (Rep_left.2 hp)))

theorem remove_leaf {h k c x fuel} (hf : k.length < fuel)
    (hr : Rep h k (node c leaf x leaf)) (hg : Good k (node c leaf x leaf)) :
    Removed h (ids k (node c leaf x leaf)) (lids k ++ rids k) (removeLoop (fuel + 1) h x) := by
  have fx := hr.fields
  simp only [rootp] at fx
  cases k with
  | nil =>
    refine ⟨{ h with root := none }, leaf, ?_, ⟨⟨none, none, ⟨rfl, rfl⟩, rfl⟩, by simp [ids, T.toList, lids, rids]⟩,
      ⟨0, trivial, rfl, by simp [rootRed]⟩, by simp [T.toList, lids, rids],
      ⟨fun _ _ => ⟨rfl, rfl, rfl⟩, rfl, rfl, rfl⟩⟩
    simp [removeLoop, replacement, fx, hr.root, rootp]
  | cons f k =>
    have hroot : h.root ≠ some x := by
      obtain ⟨hl, hro⟩ := Linked_rep (Rep_plug.2 hr)
      intro e
      have := hl.rt x (by
        have := ids_plug (f :: k) (node c leaf x leaf)
        simp only [ids, lids, rids, List.nil_append, List.append_nil] at this
        rw [this]; simp [T.toList]) e
      rw [fx.2.2.2] at this
      cases f <;> simp [par] at this
    cases c with
    | false =>
      obtain ⟨h', t', e, r2, g2, i2, f2⟩ := finish hf hr hg
      refine ⟨h', t', ?_, r2, g2, i2, f2⟩
      simp only [removeLoop, replacement, fx, hroot, if_false] at e ⊢
      exact e
    | true =>
      obtain ⟨n, g1, g2, g3⟩ := hg
      simp only [RB] at g2
      obtain ⟨rfl, _⟩ := g2
      obtain ⟨h1, e1, r1, f1⟩ : ∃ h1, (match sibling h x with
          | some s => some (setRed h s true)
          | none => some h) = some h1 ∧ Rep h1 (f :: k) (node true leaf x leaf) ∧
          Frame h h1 (ids (f :: k) (node true leaf x leaf)) := by
        cases hs : sibling h x with
        | none => exact ⟨h, rfl, hr, Frame.refl _ _⟩
        | some s => exact ⟨_, rfl, setRed_sibling hr g1 s hs, setRed_frame _ _ _ _⟩
      obtain ⟨r2, f2⟩ := detach r1
      refine ⟨_, plug (f :: k) leaf, ?_, Rep_plug.2 r2, (Good_plug _ _).2 (Good_leaf_ctx g1), ?_,
        f1.trans f2⟩
      · simp only [removeLoop, replacement, fx, hroot, if_false, Bool.not_true, Bool.false_eq_true]
        exact congrArg (Option.map _) e1
      · have := ids_plug (f :: k) leaf; simpa [ids, lids, rids, T.toList] using this

theorem lids_append : ∀ j k, lids (j ++ k) = lids k ++ lids j
  | [], k => by simp [lids]
  | L c x r :: j, k => by simp [lids, lids_append j k]
  | R c l x :: j, k => by simp [lids, lids_append j k]

theorem rids_append : ∀ j k, rids (j ++ k) = rids j ++ rids k
  | [], k => by simp [rids]
  | L c x r :: j, k => by simp [rids, rids_append j k]
  | R c l x :: j, k => by simp [rids, rids_append j k]

theorem removeLoop_rep {h k c l x r fuel} (hf : (ids k (node c l x r)).length + 3 ≤ fuel)
    (hr : Rep h k (node c l x r)) (hg : Good k (node c l x r)) :
    Removed h (ids k (node c l x r)) (lids k ++ (l.toList ++ (r.toList ++ rids k)))
      (removeLoop fuel h x) := by
  have hlen := length_ids k (node c l x r)
  obtain ⟨n, g1, g2, g3⟩ := hg
  obtain ⟨fuel, rfl⟩ : ∃ f, fuel = f + 1 := ⟨fuel - 1, by omega⟩
  by_cases hl : l = leaf
  · subst hl
    by_cases hrr : r = leaf
    · subst hrr
      have := remove_leaf (fuel := fuel) (by omega) hr ⟨n, g1, g2, g3⟩
      simpa [T.toList] using this
    · obtain ⟨rfl, y, rfl⟩ := one_right g2 hrr
      have := remove_right (fuel := fuel) (by omega) hr ⟨n, g1, g2, g3⟩
      simpa [T.toList] using this
  · by_cases hrr : r = leaf
    · subst hrr
      obtain ⟨rfl, y, rfl⟩ := one_left g2 hl
      have := remove_left (fuel := fuel) (by omega) hr ⟨n, g1, g2, g3⟩
      simpa [T.toList] using this
    · obtain ⟨cr, rl, rx, rr, er⟩ : ∃ cr rl rx rr, r = node cr rl rx rr := by
        cases r with
        | leaf => exact absurd rfl hrr
        | node a b c d => exact ⟨_, _, _, _, rfl⟩
      obtain ⟨ll, el⟩ : ∃ ll, rootp l = some ll := by
        cases l with
        | leaf => exact absurd rfl hl
        | node a b c d => exact ⟨_, rfl⟩
      have hlen2 : r.toList.length ≤ fuel := by simp [T.toList] at hlen; omega
      obtain ⟨j, d, y, s, e1, e2, e3, e4, e5⟩ := leftmost_rep er (Rep_right.2 hr) hlen2
      have hrep : replacement fuel h x = some (some y) := by
        have fx := hr.fields
        simp [replacement, fx, el, er, rootp_node, e1]
      clear er hrr e1
      subst e2
      have hrl : (plug j (node d leaf y s)).toList = y :: (s.toList ++ rids j) := by
        have := ids_plug j (node d leaf y s)
        simpa [ids, lids, rids, T.toList, e3] using this
      have fx := hr.fields
      have hy := Rep_plug.1 (Rep_right.2 hr |> Rep_plug.2 |> fun h => (plug_append j _ _).symm ▸ h)
      have fy := hy.fields
      have hn := hr.nodup
      simp only [ids, T.toList, hrl, List.nodup_append, List.nodup_cons, List.mem_append,
        List.mem_cons] at hn
      have hxy : x ≠ y := by clear hr hy; grind
      obtain ⟨r1, f1⟩ := swap_at (x := x) (y := y) hr (by simp [T.toList])
        (by simp [T.toList, hrl]) hxy (by
          rw [fx.2.2.2, fy.2.2.2]
          intro e
          have hw : ∃ w, par (j ++ R c l x :: k) = some w ∧
              (w = x ∨ w ∈ (plug j (node d leaf y s)).toList) := by
            rcases e5 with rfl | ⟨w, h1, h2⟩
            · exact ⟨x, rfl, Or.inl rfl⟩
            · refine ⟨w, ?_, Or.inr h2⟩
              cases j with
              | nil => simp [par] at h1
              | cons f j => cases f <;> exact h1
          obtain ⟨w, hw1, hw2⟩ := hw
          have := par_mem (e.trans hw1)
          rw [hrl] at hw2
          simp only [List.mem_append, List.mem_cons] at this hw2
          clear hr hy fx fy; grind)
      have g0 := (Good_rename (f := sw x y)).2 ⟨n, g1, g2, g3⟩
      have hren : (node c l x (plug j (node d leaf y s))).rename (sw x y) =
          node c l y (plug j (node d leaf x s)) := by
        have hid : ∀ z, z ≠ x → z ≠ y → sw x y z = z := fun z h1 h2 => by simp [sw, h1, h2]
        have w1 : l.rename (sw x y) = l := rename_id fun z hz => hid z
          (by rintro rfl; clear hr hy; grind) (by rintro rfl; clear hr hy; grind)
        have w2 : s.rename (sw x y) = s := rename_id fun z hz => hid z
          (by rintro rfl; clear hr hy; grind) (by rintro rfl; clear hr hy; grind)
        rw [T.rename, w1, rename_plug, T.rename, w2]
        · simp [sw, Ne.symm hxy, T.rename]
        · rw [e3]
          intro z hz
          rw [List.nil_append] at hz
          exact hid z (by rintro rfl; clear hr hy; grind) (by rintro rfl; clear hr hy; grind)
      rw [hren] at r1 g0
      have r2 : Rep (swap h x y) (j ++ R c l y :: k) (node d leaf x s) :=
        Rep_plug.1 (by rw [plug_append]; exact Rep_plug.2 (Rep_right.2 r1))
      have g5 : Good (j ++ R c l y :: k) (node d leaf x s) :=
        (Good_plug _ _).1 (by rw [plug_append]; exact (Good_plug _ _).2 (Good_right.2 g0))
      have hsub : ∀ z, z ∈ ids (j ++ R c l y :: k) (node d leaf x s) →
          z ∈ ids k (node c l x (plug j (node d leaf y s))) := by
        intro z hz
        simp only [ids, lids_append, rids_append, lids, rids, T.toList, hrl, e3, List.mem_append,
          List.mem_cons] at hz ⊢
        grind
      have hlen3 : (j ++ R c l y :: k).length + 1 < fuel := by
        have := length_ids k (node c l x (plug j (node d leaf y s)))
        simp only [T.toList, List.length_append, List.length_cons] at this ⊢
        omega
      by_cases hs : s = leaf
      · subst hs
        obtain ⟨h', t', e, r3, g6, i3, f3⟩ := finish (fuel := fuel) (by omega) r2 g5
        refine ⟨h', t', ?_, r3, g6, ?_, f1.trans (f3.sub hsub)⟩
        · simp only [removeLoop, hrep, fy, rootp, and_self, if_true]
          exact e
        · rw [i3]; simp [lids_append, rids_append, lids, rids, hrl, e3, T.toList]
      · obtain ⟨n2, k1, k2, k3⟩ := g5
        obtain ⟨rfl, z, rfl⟩ := one_right k2 hs
        obtain ⟨fuel, rfl⟩ : ∃ f, fuel = f + 1 := ⟨fuel - 1, by omega⟩
        have hlen4 : (j ++ R c l y :: k).length + 1 < fuel := by
          have := length_ids k (node c l x (plug j (node false leaf y (node true leaf z leaf))))
          simp only [T.toList, List.length_append, List.length_cons, hrl, List.length_nil] at this e4 ⊢
          omega
        obtain ⟨h', t', e, r3, g6, i3, f3⟩ := remove_right hlen4 r2 ⟨n2, k1, k2, k3⟩
        refine ⟨h', t', ?_, r3, g6, ?_, f1.trans (f3.sub hsub)⟩
        · rw [removeLoop, hrep]
          simp only [fy, rootp, and_false, if_false, reduceCtorEq]
          exact e
        · rw [i3]; simp [lids_append, rids_append, lids, rids, hrl, e3, T.toList]

end Verif.RbTree
