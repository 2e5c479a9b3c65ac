import Verif.Lemma.RbDel

/-! # Exchanging the places of two nodes -/

namespace Verif.RbTree

open T Fr

/-- Every node of the tree is the root of a subtree. -/
theorem focus : ∀ {t z}, z ∈ t.toList → ∃ k c l r, plug k (node c l z r) = t := by
  have key : ∀ (t : T) (z : Nat) (k : List Fr), z ∈ t.toList →
      ∃ k' c l r, plug k' (node c l z r) = plug k t := by
    intro t
    induction t with
    | leaf => intro z k h; simp [T.toList] at h
    | node c l x r ihl ihr =>
      intro z k h
      simp only [T.toList, List.mem_append, List.mem_cons] at h
      rcases h with h | rfl | h
      · exact ihl z (L c x r :: k) h
      · exact ⟨k, c, l, r, rfl⟩
      · exact ihr z (R c l x :: k) h
  intro t z h
  exact key t z [] h

/-- The links between the nodes in `D` fit each other. -/
structure Linked (h : Heap) (D : Nat → Prop) : Prop where
  l1 : ∀ z w, D z → h.left z = some w → D w ∧ h.parent w = some z
  r1 : ∀ z w, D z → h.right z = some w → D w ∧ h.parent w = some z
  p1 : ∀ z w, D w → h.parent w = some z → D z ∧ (h.left z = some w ∨ h.right z = some w)
  lr : ∀ z w, D z → h.left z = some w → h.right z ≠ some w
  ll : ∀ z w, D z → h.left z = some w → h.left w ≠ some z ∧ h.right w ≠ some z
  rr : ∀ z w, D z → h.right z = some w → h.left w ≠ some z ∧ h.right w ≠ some z
  rt : ∀ z, D z → h.root = some z → h.parent z = none

theorem Linked_rep {h t} (hr : Rep h [] t) :
    Linked h (· ∈ t.toList) ∧ (∀ z ∈ t.toList, h.parent z = none → h.root = some z) := by
  have hk : ∀ z ∈ t.toList, ∃ k c l r, Rep h k (node c l z r) ∧ plug k (node c l z r) = t := by
    intro z hz
    obtain ⟨k, c, l, r, e⟩ := focus hz
    exact ⟨k, c, l, r, Rep_plug.1 (e ▸ hr), e⟩
  have hin : ∀ k c l z r, plug k (node c l z r) = t → ∀ w, w ∈ lids k ∨ w ∈ l.toList ∨ w = z ∨
      w ∈ r.toList ∨ w ∈ rids k → w ∈ t.toList := by
    intro k c l z r e w hw
    have := ids_plug k (node c l z r)
    rw [e] at this
    simp only [ids, lids, rids, List.nil_append, List.append_nil, T.toList] at this
    rw [this]
    simp only [List.mem_append, List.mem_cons]
    grind
  have hL : ∀ z w, z ∈ t.toList → h.left z = some w → w ∈ t.toList ∧ h.parent w = some z ∧
      h.right z ≠ some w ∧ h.left w ≠ some z ∧ h.right w ≠ some z := by
    intro z w hz e
    obtain ⟨k, c, l, r, hz, et⟩ := hk z hz
    have fz := hz.fields
    have hn := hz.nodup
    rw [fz.2.1] at e
    cases l with
    | leaf => simp [rootp] at e
    | node d a v b =>
      simp only [rootp_node, Option.some.injEq] at e
      subst e
      have hv := (Rep_left.2 hz).fields
      simp only [ids, T.toList, List.nodup_append, List.nodup_cons, List.mem_append,
        List.mem_cons] at hn
      refine ⟨hin _ _ _ _ _ et _ (by simp [T.toList]), hv.2.2.2, ?_, ?_, ?_⟩
      · rw [fz.2.2.1]; apply mem_rootp_ne; clear hk hin hr hz hv; grind
      · rw [hv.2.1]; apply mem_rootp_ne; clear hk hin hr hz hv; grind
      · rw [hv.2.2.1]; apply mem_rootp_ne; clear hk hin hr hz hv; grind
  have hR : ∀ z w, z ∈ t.toList → h.right z = some w → w ∈ t.toList ∧ h.parent w = some z ∧
      h.left w ≠ some z ∧ h.right w ≠ some z := by
    intro z w hz e
    obtain ⟨k, c, l, r, hz, et⟩ := hk z hz
    have fz := hz.fields
    have hn := hz.nodup
    rw [fz.2.2.1] at e
    cases r with
    | leaf => simp [rootp] at e
    | node d a v b =>
      simp only [rootp_node, Option.some.injEq] at e
      subst e
      have hv := (Rep_right.2 hz).fields
      simp only [ids, T.toList, List.nodup_append, List.nodup_cons, List.mem_append,
        List.mem_cons] at hn
      refine ⟨hin _ _ _ _ _ et _ (by simp [T.toList]), hv.2.2.2, ?_, ?_⟩
      · rw [hv.2.1]; apply mem_rootp_ne; clear hk hin hr hz hv; grind
      · rw [hv.2.2.1]; apply mem_rootp_ne; clear hk hin hr hz hv; grind
  refine ⟨⟨fun z w h1 h2 => ⟨(hL z w h1 h2).1, (hL z w h1 h2).2.1⟩,
    fun z w h1 h2 => ⟨(hR z w h1 h2).1, (hR z w h1 h2).2.1⟩, ?_, fun z w h1 h2 => (hL z w h1 h2).2.2.1,
    fun z w h1 h2 => (hL z w h1 h2).2.2.2, fun z w h1 h2 => (hR z w h1 h2).2.2, ?_⟩, ?_⟩
  · intro z w hw e
    obtain ⟨k, c, l, r, hw, et⟩ := hk w hw
    have fw := hw.fields
    rw [fw.2.2.2] at e
    cases k with
    | nil => simp [par] at e
    | cons f k =>
      cases f with
      | L d x b =>
        simp only [par, Option.some.injEq] at e
        subst e
        refine ⟨hin _ _ _ _ _ et _ (by simp [rids]), Or.inl ((Rep_left.1 hw).fields.2.1)⟩
      | R d b x =>
        simp only [par, Option.some.injEq] at e
        subst e
        refine ⟨hin _ _ _ _ _ et _ (by simp [lids]), Or.inr ((Rep_right.1 hw).fields.2.2.1)⟩
  · intro z hz e
    have := hr.root
    rw [e] at this
    cases t with
    | leaf => simp [T.toList] at hz
    | node c l x r =>
      simp only [rootp_node, Option.some.injEq] at this
      subst this
      exact hr.fields.2.2.2
  · intro z hz e
    obtain ⟨k, c, l, r, hw, et⟩ := hk z hz
    have fw := hw.fields
    rw [fw.2.2.2] at e
    cases k with
    | nil => rw [plug] at et; rw [hr.root, ← et]; rfl
    | cons f k => cases f <;> simp [par] at e

/-- The exchange of two nodes. -/
def sw (x y z : Nat) : Nat := if z = x then y else if z = y then x else z

theorem sw_invol (x y z) : sw x y (sw x y z) = z := by unfold sw; grind

theorem unself_spec {h : Heap} {x y : Nat}
    (h1 : h.parent x = some x → h.left x ≠ some x ∧ h.right x ≠ some x)
    (h2 : h.left x = some x → h.right x ≠ some x) :
    (∀ z, (unself h x y).left z = if z = x ∧ h.left x = some x then some y else h.left z) ∧
    (∀ z, (unself h x y).right z = if z = x ∧ h.right x = some x then some y else h.right z) ∧
    (∀ z, (unself h x y).parent z = if z = x ∧ h.parent x = some x then some y else h.parent z) ∧
    (unself h x y).red = h.red ∧ (unself h x y).root = h.root ∧ (unself h x y).key = h.key ∧
    (unself h x y).dups = h.dups ∧ (unself h x y).head = h.head := by
  unfold unself
  split
  · simp only [setParent]
    grind [upd]
  · split
    · simp only [setLeft]
      grind [upd]
    · split
      · simp only [setRight]
        grind [upd]
      · grind

theorem swap_spec {h : Heap} {D : Nat → Prop} {x y : Nat} (hl : Linked h D) (hx : D x) (hy : D y)
    (hxy : x ≠ y) (hpp : h.parent y = none ∨ h.parent x ≠ h.parent y)
    (hrx : h.parent x = none → h.root = some x) :
    (∀ z, D z → (swap h x y).left (sw x y z) = (h.left z).map (sw x y)) ∧
    (∀ z, D z → (swap h x y).right (sw x y z) = (h.right z).map (sw x y)) ∧
    (∀ z, D z → (swap h x y).parent (sw x y z) = (h.parent z).map (sw x y)) ∧
    (∀ z, D z → (swap h x y).red (sw x y z) = h.red z) ∧
    (swap h x y).root = h.root.map (sw x y) ∧ (swap h x y).key = h.key ∧
    (swap h x y).dups = h.dups ∧ (swap h x y).head = h.head ∧
    (∀ z, ¬ D z → (swap h x y).left z = h.left z ∧ (swap h x y).right z = h.right z ∧
      (swap h x y).parent z = h.parent z) := by
  obtain ⟨h1, e1⟩ : ∃ h1, h1 = exchange h x y := ⟨_, rfl⟩
  have a1 : ∀ z, h1.left z = if z = y then h.left x else if z = x then h.left y else h.left z := by
    intro z; rw [e1]; simp [exchange, upd]
  have a2 : ∀ z, h1.right z = if z = y then h.right x else if z = x then h.right y else h.right z := by
    intro z; rw [e1]; simp [exchange, upd]
  have a3 : ∀ z, h1.parent z =
      if z = y then h.parent x else if z = x then h.parent y else h.parent z := by
    intro z; rw [e1]; simp [exchange, upd]
  have a4 : ∀ z, h1.red z = if z = y then h.red x else if z = x then h.red y else h.red z := by
    intro z; rw [e1]; simp [exchange, upd]
  have a5 : h1.root = h.root ∧ h1.key = h.key ∧ h1.dups = h.dups ∧ h1.head = h.head := by
    rw [e1]; simp [exchange]
  -- links of the two nodes to each other
  have s1 : ∀ z, D z → h.left z ≠ some z ∧ h.right z ≠ some z ∧ h.parent z ≠ some z := by
    intro z hz
    refine ⟨fun e => (hl.ll z z hz e).1 e, fun e => (hl.rr z z hz e).2 e, fun e => ?_⟩
    rcases (hl.p1 z z hz e).2 with e | e
    · exact (hl.ll z z hz e).1 e
    · exact (hl.rr z z hz e).2 e
  have sx := s1 x hx
  have sy := s1 y hy
  have c1 : h.left x = some y → h.parent y = some x ∧ h.left y ≠ some x ∧ h.right y ≠ some x ∧
      h.right x ≠ some y ∧ h.parent x ≠ some y := by
    intro e
    have h1 := hl.ll x y hx e
    refine ⟨(hl.l1 x y hx e).2, h1.1, h1.2, hl.lr x y hx e, fun e' => ?_⟩
    rcases (hl.p1 y x hx e').2 with e'' | e'' <;> grind
  have c2 : h.right x = some y → h.parent y = some x ∧ h.left y ≠ some x ∧ h.right y ≠ some x ∧
      h.left x ≠ some y ∧ h.parent x ≠ some y := by
    intro e
    have h1 := hl.rr x y hx e
    refine ⟨(hl.r1 x y hx e).2, h1.1, h1.2, fun e' => hl.lr x y hx e' e, fun e' => ?_⟩
    rcases (hl.p1 y x hx e').2 with e'' | e'' <;> grind
  have c3 : h.left y = some x → h.parent x = some y ∧ h.right y ≠ some x ∧ h.parent y ≠ some x := by
    intro e
    have h1 := hl.ll y x hy e
    refine ⟨(hl.l1 y x hy e).2, hl.lr y x hy e, fun e' => ?_⟩
    rcases (hl.p1 x y hy e').2 with e'' | e'' <;> grind
  have c4 : h.right y = some x → h.parent x = some y ∧ h.left y ≠ some x ∧ h.parent y ≠ some x := by
    intro e
    have h1 := hl.rr y x hy e
    refine ⟨(hl.r1 y x hy e).2, fun e' => hl.lr y x hy e' e, fun e' => ?_⟩
    rcases (hl.p1 x y hy e').2 with e'' | e'' <;> grind
  have c5 : h.parent y = some x → h.left x = some y ∨ h.right x = some y :=
    fun e => (hl.p1 x y hy e).2
  have c6 : h.parent x = some y → h.left y = some x ∨ h.right y = some x :=
    fun e => (hl.p1 y x hx e).2
  have m : ∀ p : Option Nat, p.map (sw x y) = if p = some x then some y else if p = some y then some x
      else p := by
    intro p; cases p with
    | none => simp
    | some p => simp only [Option.map_some, sw, Option.some.injEq]; split <;> [rfl; split <;> rfl]
  obtain ⟨h2, e2⟩ : ∃ h2, h2 = unself h1 x y := ⟨_, rfl⟩
  obtain ⟨b1, b2, b3, b4, b5, b6, b7, b8⟩ := unself_spec (h := h1) (x := x) (y := y)
    (by grind) (by grind)
  rw [← e2] at b1 b2 b3 b4 b5 b6 b7 b8
  obtain ⟨h3, e3⟩ : ∃ h3, h3 = unself h2 y x := ⟨_, rfl⟩
  obtain ⟨d1, d2, d3, d4, d5, d6, d7, d8⟩ := unself_spec (h := h2) (x := y) (y := x)
    (by grind) (by grind)
  rw [← e3] at d1 d2 d3 d4 d5 d6 d7 d8
  have f1 : ∀ z, h3.left z = if z = x then (h.left y).map (sw x y) else if z = y then
      (h.left x).map (sw x y) else h.left z := by
    intro z; rw [m, m, d1, b1, b1, a1, a1, a1]; grind
  have f2 : ∀ z, h3.right z = if z = x then (h.right y).map (sw x y) else if z = y then
      (h.right x).map (sw x y) else h.right z := by
    intro z; rw [m, m, d2, b2, b2, a2, a2, a2]; grind
  have f3 : ∀ z, h3.parent z = if z = x then (h.parent y).map (sw x y) else if z = y then
      (h.parent x).map (sw x y) else h.parent z := by
    intro z; rw [m, m, d3, b3, b3, a3, a3, a3]; grind
  have f4 : ∀ z, h3.red z = if z = y then h.red x else if z = x then h.red y else h.red z := by
    intro z; rw [d4, b4, a4]
  have f5 : h3.root = h.root ∧ h3.key = h.key ∧ h3.dups = h.dups ∧ h3.head = h.head := by
    rw [d5, b5, d6, b6, d7, b7, d8, b8]; exact a5
  clear a1 a2 a3 a4 a5 b1 b2 b3 b4 b5 b6 b7 b8 d1 d2 d3 d4 d5 d6 d7 d8
  obtain ⟨h5, e5⟩ : ∃ h5, h5 = updateChildren (updateChildren h3 x) y := ⟨_, rfl⟩
  have g1 : h5.left = h3.left := by
    rw [e5]; simp only [updateChildren, setParentOpt_left]
  have g2 : h5.right = h3.right := by
    rw [e5]; simp only [updateChildren, setParentOpt_right]
  have g3 : ∀ z, h5.parent z = if h3.right y = some z ∨ h3.left y = some z then some y else
      if h3.right x = some z ∨ h3.left x = some z then some x else h3.parent z := by
    intro z; rw [e5]
    simp only [updateChildren, setParentOpt_left, setParentOpt_right, setParentOpt_parent]
    grind
  have g4 : h5.red = h3.red := by rw [e5]; simp only [updateChildren, setParentOpt_red]
  have g5 : h5.root = h.root ∧ h5.key = h.key ∧ h5.dups = h.dups ∧ h5.head = h.head := by
    rw [e5]; simp only [updateChildren, setParentOpt_root, setParentOpt_key, setParentOpt_dups,
      setParentOpt_head]; exact f5
  have q1 : ∀ z, D z → h5.parent (sw x y z) = (h.parent z).map (sw x y) := by
    intro z hz
    have k1 := hl.l1 x z hx
    have k2 := hl.r1 x z hx
    have k3 := hl.l1 y z hy
    have k4 := hl.r1 y z hy
    have k5 := hl.p1 x z hz
    have k6 := hl.p1 y z hz
    simp only [g3, f1, f2, f3, m, if_true, if_neg (Ne.symm hxy)]
    clear g1 g2 g3 g4 g5 f1 f2 f3 f4 f5 m s1 e1 e2 e3 e5 hl hpp hrx
    by_cases z1 : z = x
    · subst z1
      simp only [sw, if_true, if_neg hxy, if_neg (Ne.symm hxy)]
      grind
    · by_cases z2 : z = y
      · subst z2
        simp only [sw, if_true, if_neg hxy, if_neg (Ne.symm hxy)]
        grind
      · simp only [sw, if_neg z1, if_neg z2]
        grind
  have q2 : ∀ z, ¬ D z → h5.parent z = h.parent z := by
    intro z hz
    have k1 := hl.l1 x z hx
    have k2 := hl.r1 x z hx
    have k3 := hl.l1 y z hy
    have k4 := hl.r1 y z hy
    have z1 : z ≠ x := by rintro rfl; exact hz hx
    have z2 : z ≠ y := by rintro rfl; exact hz hy
    rw [g3, f1, f1, f2, f2, f3, m, m, m, m]
    grind
  have px : h5.parent x = (h.parent y).map (sw x y) := by
    have := q1 y hy; simpa [sw, hxy, Ne.symm hxy] using this
  have py : h5.parent y = (h.parent x).map (sw x y) := by
    have := q1 x hx; simpa [sw, hxy, Ne.symm hxy] using this
  have hsw : swap h x y = updateParent (updateParent h5 (h5.parent x) y (some x))
      (h5.parent y) x (some y) := by
    have : (updateParent h5 (h5.parent x) y (some x)).parent = h5.parent := updateParent_parent _ _ _ _
    simp only [swap, ← e1, ← e2, ← e3, ← e5, this]
  rw [px, py] at hsw
  have g1' : ∀ z, h5.left z = if z = x then (h.left y).map (sw x y) else if z = y then
      (h.left x).map (sw x y) else h.left z := fun z => by rw [g1, f1]
  have g2' : ∀ z, h5.right z = if z = x then (h.right y).map (sw x y) else if z = y then
      (h.right x).map (sw x y) else h.right z := fun z => by rw [g2, f2]
  clear g1 g2 g3 f1 f2 f3 e1 e2 e3 e5
  obtain ⟨h6, e6⟩ : ∃ h6, h6 = updateParent h5 ((h.parent y).map (sw x y)) y (some x) := ⟨_, rfl⟩
  rw [← e6] at hsw
  -- the parent of `y` now points to `x`
  have r1 : ∀ z, D z → z ≠ x → z ≠ y → h6.left z = (if h.left z = some y then some x else h.left z) ∧
      h6.right z = (if h.right z = some y then some x else h.right z) := by
    intro z hz z1 z2
    have k1 := hl.l1 z y hz
    have k2 := hl.r1 z y hz
    have k3 := hl.lr z y hz
    have k4 := hl.p1 z y hy
    rw [e6, m]
    unfold updateParent setLeft setRight
    split <;> (try split) <;> (try split) <;> grind [upd]
  have r2 : h6.left x = h5.left x ∧ h6.right x = h5.right x ∧ h6.left y = h5.left y ∧
      h6.right y = h5.right y := by
    rw [e6, m]
    have k1 := g1' x
    have k2 := g2' x
    have k3 := g1' y
    have k4 := g2' y
    rw [m] at k1 k2 k3 k4
    unfold updateParent setLeft setRight
    split <;> (try split) <;> (try split) <;> grind [upd]
  have r3 : h6.root = if h.root = some y then some x else h.root := by
    have k := hl.rt y hy
    have k2 := g5.1
    rw [e6, m]
    unfold updateParent setLeft setRight
    split <;> (try split) <;> (try split) <;> grind [upd]
  have r4 : ∀ z, ¬ D z → h6.left z = h.left z ∧ h6.right z = h.right z := by
    intro z hz
    have k4 := hl.p1 z y hy
    have z1 : z ≠ x := by rintro rfl; exact hz hx
    have z2 : z ≠ y := by rintro rfl; exact hz hy
    rw [e6, m]
    unfold updateParent setLeft setRight
    split <;> (try split) <;> (try split) <;> grind [upd]
  have r5 : h6.red = h5.red ∧ h6.key = h5.key ∧ h6.dups = h5.dups ∧ h6.head = h5.head ∧
      h6.parent = h5.parent := by
    rw [e6]
    exact ⟨updateParent_red _ _ _ _, updateParent_key _ _ _ _, updateParent_dups _ _ _ _,
      updateParent_head _ _ _ _, updateParent_parent _ _ _ _⟩
  clear e6
  obtain ⟨h7, e7⟩ : ∃ h7, h7 = updateParent h6 ((h.parent x).map (sw x y)) x (some y) := ⟨_, rfl⟩
  rw [← e7] at hsw
  rw [hsw]
  have t1 : ∀ z, D z → z ≠ x → z ≠ y → h7.left z = (h.left z).map (sw x y) ∧
      h7.right z = (h.right z).map (sw x y) := by
    intro z hz z1 z2
    have k1 := hl.l1 z y hz
    have k2 := hl.r1 z y hz
    have k3 := hl.l1 z x hz
    have k4 := hl.r1 z x hz
    have k5 := hl.lr z x hz
    have k6 := hl.p1 z x hx
    have k7 := r1 z hz z1 z2
    rw [e7, m, m, m]
    clear hsw e7 r1 r2 r3 r4 r5 g1' g2' g4 g5 q1 q2 px py m s1 c1 c2 c3 c4 c5 c6 hl f4 f5
    unfold updateParent setLeft setRight
    split <;> (try split) <;> (try split) <;> grind [upd]
  have t2 : h7.left x = h5.left x ∧ h7.right x = h5.right x ∧ h7.left y = h5.left y ∧
      h7.right y = h5.right y := by
    have k1 := g1' x
    have k2 := g2' x
    have k3 := g1' y
    have k4 := g2' y
    rw [m] at k1 k2 k3 k4
    rw [e7, m]
    clear hsw e7 r1 r3 r4 r5 g1' g2' g4 g5 q1 q2 px py m s1 hl f4 f5
    unfold updateParent setLeft setRight
    split <;> (try split) <;> (try split) <;> grind [upd]
  have t3 : h7.root = h.root.map (sw x y) := by
    have k := hl.rt x hx
    have k1 := hl.rt y hy
    rw [e7, m, m]
    clear hsw e7 r1 r2 r4 r5 g1' g2' g4 q1 q2 px py m s1 hl f4 f5
    unfold updateParent setLeft setRight
    split <;> (try split) <;> (try split) <;> grind [upd]
  have t4 : ∀ z, ¬ D z → h7.left z = h.left z ∧ h7.right z = h.right z := by
    intro z hz
    have k4 := hl.p1 z x hx
    have z1 : z ≠ x := by rintro rfl; exact hz hx
    have z2 : z ≠ y := by rintro rfl; exact hz hy
    have k5 := r4 z hz
    rw [e7, m]
    clear hsw e7 r1 r2 r3 r4 r5 g1' g2' g4 g5 q1 q2 px py m s1 hl f4 f5
    unfold updateParent setLeft setRight
    split <;> (try split) <;> (try split) <;> grind [upd]
  have t5 : h7.red = h5.red ∧ h7.key = h5.key ∧ h7.dups = h5.dups ∧ h7.head = h5.head ∧
      h7.parent = h5.parent := by
    rw [e7, updateParent_red, updateParent_key, updateParent_dups, updateParent_head,
      updateParent_parent]
    exact r5
  obtain ⟨t6, t7, t8, t9, t10⟩ := t5
  refine ⟨?_, ?_, fun z hz => by rw [t10, q1 z hz], ?_, t3, t7.trans g5.2.1, t8.trans g5.2.2.1,
    t9.trans g5.2.2.2, fun z hz => ⟨(t4 z hz).1, (t4 z hz).2, by rw [t10, q2 z hz]⟩⟩
  · intro z hz
    by_cases z1 : z = x
    · subst z1; rw [sw, if_pos rfl, t2.2.2.1, g1', if_neg (Ne.symm hxy), if_pos rfl]
    · by_cases z2 : z = y
      · subst z2; rw [sw, if_neg z1, if_pos rfl, t2.1, g1', if_pos rfl]
      · rw [sw, if_neg z1, if_neg z2, (t1 z hz z1 z2).1]
  · intro z hz
    by_cases z1 : z = x
    · subst z1; rw [sw, if_pos rfl, t2.2.2.2, g2', if_neg (Ne.symm hxy), if_pos rfl]
    · by_cases z2 : z = y
      · subst z2; rw [sw, if_neg z1, if_pos rfl, t2.2.1, g2', if_pos rfl]
      · rw [sw, if_neg z1, if_neg z2, (t1 z hz z1 z2).2]
  · intro z hz
    rw [t6, g4, f4]
    unfold sw
    grind

/-- The tree with other nodes in the same places. -/
def T.rename (f : Nat → Nat) : T → T
  | leaf => leaf
  | node c l x r => node c (l.rename f) (f x) (r.rename f)

theorem toList_rename (f : Nat → Nat) : ∀ t : T, (t.rename f).toList = t.toList.map f
  | leaf => rfl
  | node c l x r => by simp [T.rename, T.toList, toList_rename f l, toList_rename f r]

theorem Repr_rename {h h' : Heap} {f : Nat → Nat} : ∀ {t p q},
    (∀ z ∈ t.toList, h'.left (f z) = (h.left z).map f ∧ h'.right (f z) = (h.right z).map f ∧
      h'.parent (f z) = (h.parent z).map f ∧ h'.red (f z) = h.red z) →
    Repr h p q t → Repr h' (p.map f) (q.map f) (t.rename f)
  | leaf, _, _, _, h1 => by simp only [Repr, T.rename] at h1 ⊢; simp [h1]
  | node c l x r, p, q, hz, h1 => by
    simp only [Repr, T.rename] at h1 ⊢
    obtain ⟨rfl, rfl, h2, h3, h4⟩ := h1
    obtain ⟨a, b, c, d⟩ := hz x (by simp [T.toList])
    rw [a, b, c, d]
    exact ⟨rfl, rfl, h2, Repr_rename (fun z hz' => hz z (by simp [T.toList, hz'])) h3,
      Repr_rename (fun z hz' => hz z (by simp [T.toList, hz'])) h4⟩

theorem rootRed_rename (f t) : rootRed (T.rename f t) = rootRed t := by cases t <;> rfl

theorem RB_rename (f) : ∀ {t n}, RB (T.rename f t) n ↔ RB t n
  | leaf, n => Iff.rfl
  | node true l x r, n => by simp only [T.rename, RB, RB_rename f, rootRed_rename]
  | node false l x r, 0 => Iff.rfl
  | node false l x r, n + 1 => by simp only [T.rename, RB, RB_rename f]

theorem sw_inj (x y) : Function.Injective (sw x y) := fun a b e => by
  have := congrArg (sw x y) e; rwa [sw_invol, sw_invol] at this

/-- Exchanging a node of the tree with a node that is in the tree too. -/
theorem swap_rep {h t x y} (hr : Rep h [] t) (hx : x ∈ t.toList) (hy : y ∈ t.toList) (hxy : x ≠ y)
    (hpp : h.parent y = none ∨ h.parent x ≠ h.parent y) :
    Rep (swap h x y) [] (t.rename (sw x y)) ∧ Frame h (swap h x y) t.toList := by
  obtain ⟨hl, hro⟩ := Linked_rep hr
  obtain ⟨s1, s2, s3, s4, s5, s6, s7, s8, s9⟩ := swap_spec hl hx hy hxy hpp (hro x hx)
  obtain ⟨⟨q, p, h1, h2⟩, hn⟩ := hr
  simp only [ReprC] at h1
  obtain ⟨rfl, rfl⟩ := h1
  refine ⟨⟨⟨_, _, ⟨s5, rfl⟩, ?_⟩, ?_⟩, ⟨s9, s6, s7, s8⟩⟩
  · exact Repr_rename (fun z hz => ⟨s1 z hz, s2 z hz, s3 z hz, s4 z hz⟩) h2
  · simp only [ids, lids, rids, List.nil_append, List.append_nil, toList_rename] at hn ⊢
    exact hn.map (sw_inj x y)

/-- Exchanging a node of the tree with a node outside that has no links. -/
theorem swap_out_rep {h t x y} (hr : Rep h [] t) (hx : x ∈ t.toList) (hy : y ∉ t.toList)
    (y1 : h.left y = none) (y2 : h.right y = none) (y3 : h.parent y = none) :
    Rep (swap h x y) [] (t.rename (sw x y)) ∧ Frame h (swap h x y) (y :: t.toList) ∧
    (swap h x y).left x = none ∧ (swap h x y).right x = none ∧ (swap h x y).parent x = none := by
  obtain ⟨hl, hro⟩ := Linked_rep hr
  have hxy : x ≠ y := by rintro rfl; exact hy hx
  have hl' : Linked h (fun z => z = y ∨ z ∈ t.toList) := by
    refine ⟨?_, ?_, ?_, ?_, ?_, ?_, ?_⟩
    · rintro z w (rfl | hz) e
      · rw [y1] at e; cases e
      · exact ⟨Or.inr (hl.l1 z w hz e).1, (hl.l1 z w hz e).2⟩
    · rintro z w (rfl | hz) e
      · rw [y2] at e; cases e
      · exact ⟨Or.inr (hl.r1 z w hz e).1, (hl.r1 z w hz e).2⟩
    · rintro z w (rfl | hz) e
      · rw [y3] at e; cases e
      · exact ⟨Or.inr (hl.p1 z w hz e).1, (hl.p1 z w hz e).2⟩
    · rintro z w (rfl | hz) e
      · rw [y1] at e; cases e
      · exact hl.lr z w hz e
    · rintro z w (rfl | hz) e
      · rw [y1] at e; cases e
      · exact hl.ll z w hz e
    · rintro z w (rfl | hz) e
      · rw [y2] at e; cases e
      · exact hl.rr z w hz e
    · rintro z (rfl | hz) e
      · exact y3
      · exact hl.rt z hz e
  obtain ⟨s1, s2, s3, s4, s5, s6, s7, s8, s9⟩ :=
    swap_spec hl' (Or.inr hx) (Or.inl rfl) hxy (Or.inl y3) (hro x hx)
  obtain ⟨⟨q, p, h1, h2⟩, hn⟩ := hr
  simp only [ReprC] at h1
  obtain ⟨rfl, rfl⟩ := h1
  have syx : sw x y y = x := by simp [sw, Ne.symm hxy]
  refine ⟨⟨⟨_, _, ⟨s5, rfl⟩, ?_⟩, ?_⟩, ⟨fun z hz => s9 z ?_, s6, s7, s8⟩, ?_, ?_, ?_⟩
  · exact Repr_rename (fun z hz => ⟨s1 z (Or.inr hz), s2 z (Or.inr hz), s3 z (Or.inr hz),
      s4 z (Or.inr hz)⟩) h2
  · simp only [ids, lids, rids, List.nil_append, List.append_nil, toList_rename] at hn ⊢
    exact hn.map (sw_inj x y)
  · simpa using hz
  · have := s1 y (Or.inl rfl); rw [syx, y1] at this; exact this
  · have := s2 y (Or.inl rfl); rw [syx, y2] at this; exact this
  · have := s3 y (Or.inl rfl); rw [syx, y3] at this; exact this

end Verif.RbTree
