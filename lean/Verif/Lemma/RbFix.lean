import Verif.Lemma.RbTree

/-! # Repairing a red-black tree after an insertion -/

namespace Verif.RbTree

open T Fr

def rootp : T → Option Nat
  | leaf => none
  | node _ _ x _ => some x

theorem rootp_node (c l x r) : rootp (node c l x r) = some x := rfl

theorem rootRed_node (c l x r) : rootRed (node c l x r) = c := rfl

def par : List Fr → Option Nat
  | [] => none
  | L _ x _ :: _ => some x
  | R _ _ x :: _ => some x

theorem Repr_rootp {h p q t} (h1 : Repr h p q t) : q = rootp t := by
  cases t <;> simp only [Repr, rootp] at h1 ⊢
  · exact h1
  · exact h1.1

theorem ReprC_par {h k q p} (h1 : ReprC h k q p) : p = par k := by
  cases k with
  | nil => exact h1.2
  | cons f k => cases f <;> exact h1.1

theorem Rep.fields {h k c l x r} (hr : Rep h k (node c l x r)) :
    h.red x = c ∧ h.left x = rootp l ∧ h.right x = rootp r ∧ h.parent x = par k := by
  obtain ⟨⟨q, p, h1, h2⟩, _⟩ := hr
  simp only [Repr] at h2
  exact ⟨h2.2.2.1, Repr_rootp h2.2.2.2.1, Repr_rootp h2.2.2.2.2, h2.2.1.trans (ReprC_par h1)⟩

theorem Rep.root {h t} (hr : Rep h [] t) : h.root = rootp t := by
  obtain ⟨⟨q, p, h1, h2⟩, _⟩ := hr
  simp only [ReprC] at h1
  exact h1.1.trans (Repr_rootp h2)

theorem setRed_rep {h k c l x r} (c') (hr : Rep h k (node c l x r)) :
    Rep (setRed h x c') k (node c' l x r) := by
  obtain ⟨⟨q, p, h1, h2⟩, hn⟩ := hr
  have hnd := hn
  simp only [ids, T.toList, List.nodup_append, List.nodup_cons, List.mem_append,
    List.mem_cons] at hn
  have n1 : x ∉ l.toList ∧ x ∉ r.toList ∧ x ∉ lids k ++ rids k := by clear hnd; grind
  have key : ∀ z, z ≠ x → Same h (setRed h x c') z := fun z hz => by simp [Same, setRed, upd, hz]
  simp only [Repr] at h2
  refine ⟨⟨q, p, ReprC_congr (h := h) (fun z hz => key z ?_) rfl h1, h2.1, h2.2.1, ?_,
    Repr_congr (h := h) (fun z hz => key z ?_) h2.2.2.2.1,
    Repr_congr (h := h) (fun z hz => key z ?_) h2.2.2.2.2⟩, hnd⟩
  · rintro rfl; exact n1.2.2 hz
  · simp [setRed, upd]
  · rintro rfl; exact n1.1 hz
  · rintro rfl; exact n1.2.1 hz

theorem setRed_frame (h x c S) : Frame h (setRed h x c) S := ⟨fun _ _ => ⟨rfl, rfl, rfl⟩, rfl, rfl, rfl⟩

theorem blackRoot_rep {h c l x r} (hr : Rep h [] (node c l x r)) :
    blackRoot h = some (setRed h x false) ∧ Rep (setRed h x false) [] (node false l x r) := by
  refine ⟨?_, setRed_rep _ hr⟩
  simp [blackRoot, hr.root, rootp]

/-- The nodes of the tree are distinct: those of a node, its subtrees and its surroundings. -/
theorem Rep.ne {h k c l x r} (hr : Rep h k (node c l x r)) :
    x ∉ l.toList ∧ x ∉ r.toList ∧ x ∉ lids k ∧ x ∉ rids k := by
  have hn := hr.nodup
  simp only [ids, T.toList, List.nodup_append, List.nodup_cons, List.mem_append,
    List.mem_cons] at hn
  clear hr; grind

theorem rootp_mem {t x} (h : rootp t = some x) : x ∈ t.toList := by
  cases t <;> simp [rootp, T.toList] at h ⊢; simp [h]

theorem mem_rootp_ne {t : T} {x} (h : x ∉ t.toList) : rootp t ≠ some x := fun e => h (rootp_mem e)

theorem isRed_rootp {h : Heap} {p q t} (hr : Repr h p q t) : isRed h (rootp t) = rootRed t := by
  cases t with
  | leaf => rfl
  | node c l x r => simp only [Repr] at hr; simp [isRed, rootp, rootRed, hr.2.2.1]

theorem Rep.isRed_left {h k c l x r} (hr : Rep h k (node c l x r)) :
    isRed h (rootp l) = rootRed l := by
  obtain ⟨⟨q, p, h1, h2⟩, _⟩ := hr
  simp only [Repr] at h2; exact isRed_rootp h2.2.2.2.1

theorem Rep.isRed_right {h k c l x r} (hr : Rep h k (node c l x r)) :
    isRed h (rootp r) = rootRed r := by
  obtain ⟨⟨q, p, h1, h2⟩, _⟩ := hr
  simp only [Repr] at h2; exact isRed_rootp h2.2.2.2.2

theorem recolor_LL {h k p sp g ua u ub a x b}
    (hr : Rep h (L true p sp :: L false g (node true ua u ub) :: k) (node true a x b)) :
    ∃ h', fixRound h x p g = some (h', g) ∧
      Rep h' k (node true (node false (node true a x b) p sp) g (node false ua u ub)) ∧
      Frame h h' (ids k (node false (node true (node true a x b) p sp) g (node true ua u ub))) := by
  have hp := Rep_left.1 hr
  have hg := Rep_left.1 hp
  have fx := hr.fields
  have fp := hp.fields
  have fg := hg.fields
  simp only [rootp_node, par] at fx fp fg
  have hne : rootp (node true ua u ub) ≠ some p := by
    have := hg.nodup
    simp only [ids, T.toList, List.nodup_append, List.nodup_cons, List.mem_append,
      List.mem_cons] at this
    simp only [rootp_node]
    clear hr hp hg fx fp fg; grind
  simp only [rootp_node] at hne
  have hu := Rep_right.2 hg
  have fu := hu.fields
  refine ⟨setRed (setRed (setRed h g true) p false) u false, ?_, ?_,
    (setRed_frame _ _ _ _).trans ((setRed_frame _ _ _ _).trans (setRed_frame _ _ _ _))⟩
  · simp [fixRound, fg, hne, isRed, fu]
  · have r1 := setRed_rep true hg
    have r2 := Rep_left.1 (setRed_rep false (Rep_left.2 r1))
    exact Rep_right.1 (setRed_rep false (Rep_right.2 r2))

theorem outer_LL {h k p sp g u a x b} (hu : rootRed u = false)
    (hr : Rep h (L true p sp :: L false g u :: k) (node true a x b)) :
    ∃ h', fixRound h x p g = some (h', p) ∧
      Rep h' k (node false (node true a x b) p (node true sp g u)) ∧
      Frame h h' (ids k (node false (node true (node true a x b) p sp) g u)) := by
  have hp := Rep_left.1 hr
  have hg := Rep_left.1 hp
  have fx := hr.fields
  have fp := hp.fields
  have fg := hg.fields
  simp only [rootp_node, par] at fx fp fg
  have hne : rootp u ≠ some p := by
    have := hg.nodup
    simp only [ids, T.toList, List.nodup_append, List.nodup_cons, List.mem_append,
      List.mem_cons] at this
    apply mem_rootp_ne
    clear hr hp hg fx fp fg; grind
  have hne2 : rootp sp ≠ some x := by
    have := hp.nodup
    simp only [ids, T.toList, List.nodup_append, List.nodup_cons, List.mem_append,
      List.mem_cons] at this
    apply mem_rootp_ne
    clear hr hp hg fx fp fg; grind
  have hur := hg.isRed_right
  rw [hu] at hur
  obtain ⟨h', e, r, f⟩ := rotateRight_rep hg
  have r1 := setRed_rep false r
  have r2 := Rep_right.1 (setRed_rep true (Rep_right.2 r1))
  have e1 : h'.red p = true := r.fields.1
  have e2 : h'.red g = false := (Rep_right.2 r).fields.1
  have hpg : p ≠ g := by
    have := r.ne; simp [T.toList] at this; grind
  refine ⟨setRed (setRed h' p false) g true, ?_, r2, ?_⟩
  · simp [fixRound, fg, fp, hur, e, hne, hne2, e1, e2, upd]
  · exact f.trans ((setRed_frame _ _ _ _).trans (setRed_frame _ _ _ _))

theorem recolor_LR {h k p sp g ua u ub a x b}
    (hr : Rep h (R true sp p :: L false g (node true ua u ub) :: k) (node true a x b)) :
    ∃ h', fixRound h x p g = some (h', g) ∧
      Rep h' k (node true (node false sp p (node true a x b)) g (node false ua u ub)) ∧
      Frame h h' (ids k (node false (node true sp p (node true a x b)) g (node true ua u ub))) := by
  have hp := Rep_right.1 hr
  have hg := Rep_left.1 hp
  have fx := hr.fields
  have fp := hp.fields
  have fg := hg.fields
  simp only [rootp_node, par] at fx fp fg
  have hne : rootp (node true ua u ub) ≠ some p := by
    have := hg.nodup
    simp only [ids, T.toList, List.nodup_append, List.nodup_cons, List.mem_append,
      List.mem_cons] at this
    simp only [rootp_node]
    clear hr hp hg fx fp fg; grind
  simp only [rootp_node] at hne
  have hu := Rep_right.2 hg
  have fu := hu.fields
  refine ⟨setRed (setRed (setRed h g true) p false) u false, ?_, ?_,
    (setRed_frame _ _ _ _).trans ((setRed_frame _ _ _ _).trans (setRed_frame _ _ _ _))⟩
  · simp [fixRound, fg, hne, isRed, fu]
  · have r1 := setRed_rep true hg
    have r2 := Rep_left.1 (setRed_rep false (Rep_left.2 r1))
    exact Rep_right.1 (setRed_rep false (Rep_right.2 r2))

theorem inner_LR {h k p sp g u a x b} (hu : rootRed u = false)
    (hr : Rep h (R true sp p :: L false g u :: k) (node true a x b)) :
    ∃ h', fixRound h x p g = some (h', p) ∧
      Rep h' (L true x b :: L false g u :: k) (node true sp p a) ∧
      Frame h h' (ids k (node false (node true sp p (node true a x b)) g u)) := by
  have hp := Rep_right.1 hr
  have hg := Rep_left.1 hp
  have fx := hr.fields
  have fp := hp.fields
  have fg := hg.fields
  simp only [rootp_node, par] at fx fp fg
  have hne : rootp u ≠ some p := by
    have := hg.nodup
    simp only [ids, T.toList, List.nodup_append, List.nodup_cons, List.mem_append,
      List.mem_cons] at this
    apply mem_rootp_ne
    clear hr hp hg fx fp fg; grind
  have hne2 : rootp sp ≠ some x := by
    have := hp.nodup
    simp only [ids, T.toList, List.nodup_append, List.nodup_cons, List.mem_append,
      List.mem_cons] at this
    apply mem_rootp_ne
    clear hr hp hg fx fp fg; grind
  have hur := hg.isRed_right
  rw [hu] at hur
  obtain ⟨h', e, r, f⟩ := rotateLeft_rep hp
  refine ⟨h', ?_, Rep_left.2 r, ?_⟩
  · simp [fixRound, fg, fp, hur, e, hne, hne2]
  · convert f using 1; simp [ids, lids, rids, T.toList]

theorem recolor_RL {h k p sp g ua u ub a x b}
    (hr : Rep h (L true p sp :: R false (node true ua u ub) g :: k) (node true a x b)) :
    ∃ h', fixRound h x p g = some (h', g) ∧
      Rep h' k (node true (node false ua u ub) g (node false (node true a x b) p sp)) ∧
      Frame h h' (ids k (node false (node true ua u ub) g (node true (node true a x b) p sp))) := by
  have hp := Rep_left.1 hr
  have hg := Rep_right.1 hp
  have fx := hr.fields
  have fp := hp.fields
  have fg := hg.fields
  simp only [rootp_node, par] at fx fp fg
  have hne : rootp (node true ua u ub) ≠ some p := by
    have := hg.nodup
    simp only [ids, T.toList, List.nodup_append, List.nodup_cons, List.mem_append,
      List.mem_cons] at this
    simp only [rootp_node]
    clear hr hp hg fx fp fg; grind
  simp only [rootp_node] at hne
  have hu := Rep_left.2 hg
  have fu := hu.fields
  refine ⟨setRed (setRed (setRed h g true) p false) u false, ?_, ?_,
    (setRed_frame _ _ _ _).trans ((setRed_frame _ _ _ _).trans (setRed_frame _ _ _ _))⟩
  · simp [fixRound, fg, hne, isRed, fu]
  · have r1 := setRed_rep true hg
    have r2 := Rep_right.1 (setRed_rep false (Rep_right.2 r1))
    exact Rep_left.1 (setRed_rep false (Rep_left.2 r2))

theorem inner_RL {h k p sp g u a x b} (hu : rootRed u = false)
    (hr : Rep h (L true p sp :: R false u g :: k) (node true a x b)) :
    ∃ h', fixRound h x p g = some (h', p) ∧
      Rep h' (R true a x :: R false u g :: k) (node true b p sp) ∧
      Frame h h' (ids k (node false u g (node true (node true a x b) p sp))) := by
  have hp := Rep_left.1 hr
  have hg := Rep_right.1 hp
  have fx := hr.fields
  have fp := hp.fields
  have fg := hg.fields
  simp only [rootp_node, par] at fx fp fg
  have hne : rootp u ≠ some p := by
    have := hg.nodup
    simp only [ids, T.toList, List.nodup_append, List.nodup_cons, List.mem_append,
      List.mem_cons] at this
    apply mem_rootp_ne
    clear hr hp hg fx fp fg; grind
  have hne2 : rootp sp ≠ some x := by
    have := hp.nodup
    simp only [ids, T.toList, List.nodup_append, List.nodup_cons, List.mem_append,
      List.mem_cons] at this
    apply mem_rootp_ne
    clear hr hp hg fx fp fg; grind
  have hur := hg.isRed_left
  rw [hu] at hur
  obtain ⟨h', e, r, f⟩ := rotateRight_rep hp
  refine ⟨h', ?_, Rep_right.2 r, ?_⟩
  · simp [fixRound, fg, fp, hur, e, hne, hne2]
  · convert f using 1; simp [ids, lids, rids, T.toList]

theorem recolor_RR {h k p sp g ua u ub a x b}
    (hr : Rep h (R true sp p :: R false (node true ua u ub) g :: k) (node true a x b)) :
    ∃ h', fixRound h x p g = some (h', g) ∧
      Rep h' k (node true (node false ua u ub) g (node false sp p (node true a x b))) ∧
      Frame h h' (ids k (node false (node true ua u ub) g (node true sp p (node true a x b)))) := by
  have hp := Rep_right.1 hr
  have hg := Rep_right.1 hp
  have fx := hr.fields
  have fp := hp.fields
  have fg := hg.fields
  simp only [rootp_node, par] at fx fp fg
  have hne : rootp (node true ua u ub) ≠ some p := by
    have := hg.nodup
    simp only [ids, T.toList, List.nodup_append, List.nodup_cons, List.mem_append,
      List.mem_cons] at this
    simp only [rootp_node]
    clear hr hp hg fx fp fg; grind
  simp only [rootp_node] at hne
  have hu := Rep_left.2 hg
  have fu := hu.fields
  refine ⟨setRed (setRed (setRed h g true) p false) u false, ?_, ?_,
    (setRed_frame _ _ _ _).trans ((setRed_frame _ _ _ _).trans (setRed_frame _ _ _ _))⟩
  · simp [fixRound, fg, hne, isRed, fu]
  · have r1 := setRed_rep true hg
    have r2 := Rep_right.1 (setRed_rep false (Rep_right.2 r1))
    exact Rep_left.1 (setRed_rep false (Rep_left.2 r2))

theorem outer_RR {h k p sp g u a x b} (hu : rootRed u = false)
    (hr : Rep h (R true sp p :: R false u g :: k) (node true a x b)) :
    ∃ h', fixRound h x p g = some (h', p) ∧
      Rep h' k (node false (node true u g sp) p (node true a x b)) ∧
      Frame h h' (ids k (node false u g (node true sp p (node true a x b)))) := by
  have hp := Rep_right.1 hr
  have hg := Rep_right.1 hp
  have fx := hr.fields
  have fp := hp.fields
  have fg := hg.fields
  simp only [rootp_node, par] at fx fp fg
  have hne : rootp u ≠ some p := by
    have := hg.nodup
    simp only [ids, T.toList, List.nodup_append, List.nodup_cons, List.mem_append,
      List.mem_cons] at this
    apply mem_rootp_ne
    clear hr hp hg fx fp fg; grind
  have hne2 : rootp sp ≠ some x := by
    have := hp.nodup
    simp only [ids, T.toList, List.nodup_append, List.nodup_cons, List.mem_append,
      List.mem_cons] at this
    apply mem_rootp_ne
    clear hr hp hg fx fp fg; grind
  have hur := hg.isRed_left
  rw [hu] at hur
  obtain ⟨h', e, r, f⟩ := rotateLeft_rep hg
  have r1 := setRed_rep false r
  have r2 := Rep_left.1 (setRed_rep true (Rep_left.2 r1))
  have e1 : h'.red p = true := r.fields.1
  have e2 : h'.red g = false := (Rep_left.2 r).fields.1
  have hpg : p ≠ g := by
    have := r.ne; simp [T.toList] at this; grind
  refine ⟨setRed (setRed h' p false) g true, ?_, r2, ?_⟩
  · simp [fixRound, fg, fp, hur, e, hne, hne2, e1, e2, upd]
  · exact f.trans ((setRed_frame _ _ _ _).trans (setRed_frame _ _ _ _))

/-- The loop ended at a place where the tree is fine. -/
theorem fix_end {h k c a x b} (hr : Rep h k (node c a x b)) (hg : Good k (node c a x b)) :
    ∃ h' t', blackRoot h = some h' ∧ Rep h' [] t' ∧ Good [] t' ∧
      ids [] t' = ids k (node c a x b) ∧ Frame h h' (ids k (node c a x b)) := by
  have r1 := Rep_plug.2 hr
  have g1 := (Good_plug k _).2 hg
  have i1 := ids_plug k (node c a x b)
  generalize plug k (node c a x b) = t at r1 g1 i1
  cases t with
  | leaf => simp [ids, lids, rids, T.toList] at i1
  | node d l y r =>
    obtain ⟨n, _, g2, g3⟩ := g1
    have hd : d = false := by
      cases d
      · rfl
      · simp [rootRed, pcol] at g3
    subst hd
    have r2 := blackRoot_rep r1
    exact ⟨_, _, r2.1, r2.2, ⟨n, trivial, g2, by simp [rootRed]⟩, i1, setRed_frame _ _ _ _⟩

theorem fix_black {h k a x b fuel} (hr : Rep h k (node false a x b))
    (hg : Good k (node false a x b)) :
    ∃ h' t', fixViolation (fuel + 1) h x = some h' ∧ Rep h' [] t' ∧ Good [] t' ∧
      ids [] t' = ids k (node false a x b) ∧ Frame h h' (ids k (node false a x b)) := by
  have := fix_end hr hg
  simpa [fixViolation, hr.fields.1] using this

theorem fixViolation_rep : ∀ fuel {h k a x b n}, k.length < fuel → Rep h k (node true a x b) →
    RB (node true a x b) n → RBC k n →
    ∃ h' t', fixViolation fuel h x = some h' ∧ Rep h' [] t' ∧ Good [] t' ∧
      ids [] t' = ids k (node true a x b) ∧ Frame h h' (ids k (node true a x b))
  | 0, h, k, a, x, b, n, hf, _, _, _ => by omega
  | fuel + 1, h, k, a, x, b, n, hf, hr, ht, hc => by
    have fx := hr.fields
    cases k with
    | nil =>
      have r2 := blackRoot_rep hr
      refine ⟨_, _, ?_, r2.2, ⟨n + 1, trivial, ⟨ht.1, ht.2.1⟩, by simp [rootRed]⟩, ?_, setRed_frame _ _ _ _⟩
      · simp only [fixViolation, fx.1, if_true, fx.2.2.2, par, r2.1]
      · simp [ids, T.toList]
    | cons f k =>
      cases hpf : pcol (f :: k) with
      | false =>
        have := fix_end hr ⟨n, hc, ht, fun _ => hpf⟩
        cases f with
        | L c p sp =>
          simp only [pcol] at hpf
          have fp := (Rep_left.1 hr).fields
          simpa [fixViolation, fx, par, fp, hpf] using this
        | R c sp p =>
          simp only [pcol] at hpf
          have fp := (Rep_right.1 hr).fields
          simpa [fixViolation, fx, par, fp, hpf] using this
      | true =>
        cases f with
        | L c p sp =>
          simp only [pcol] at hpf
          subst hpf
          simp only [RBC] at hc
          obtain ⟨c1, c2, c3, c4⟩ := hc
          have fp := (Rep_left.1 hr).fields
          cases k with
          | nil => simp [pcol] at c3
          | cons f k =>
            cases f with
            | L cg g u =>
              simp only [pcol] at c3
              subst c3
              simp only [RBC] at c4
              have hstep : ∀ h1 y, fixRound h x p g = some (h1, y) →
                  fixViolation (fuel + 1) h x = fixViolation fuel h1 y := by
                intro h1 y e
                simp [fixViolation, fx, par, fp, e]
              have hids : ids (L true p sp :: L false g u :: k) (node true a x b) =
                  ids k (node false (node true (node true a x b) p sp) g u) := by simp [ids, lids, rids, T.toList]
              rw [hids]
              cases hu : rootRed u with
              | true =>
                cases u with
                | leaf => simp [rootRed] at hu
                | node cu ua u ub =>
                  simp only [rootRed] at hu
                  subst hu
                  obtain ⟨h1, e1, r1, f1⟩ := recolor_LL hr
                  obtain ⟨h2, t2, e2, r2, g2, i2, f2⟩ := fixViolation_rep fuel (n := n + 1)
                    (by simp at hf; omega) r1 (by
                      simp only [RB, rootRed_node, and_true] at ht c4 ⊢
                      grind) c4.2
                  have i1 : ids k (node true (node false (node true a x b) p sp) g (node false ua u ub)) =
                    ids k (node false (node true (node true a x b) p sp) g (node true ua u ub)) := by simp [ids, T.toList]
                  rw [i1] at i2 f2
                  exact ⟨h2, t2, (hstep _ _ e1).trans e2, r2, g2, i2, f1.trans f2⟩
              | false =>
                obtain ⟨fuel, rfl⟩ : ∃ f, fuel = f + 2 := ⟨fuel - 2, by simp at hf; omega⟩
                obtain ⟨h1, e1, r1, f1⟩ := outer_LL hu hr
                obtain ⟨h2, t2, e2, r2, g2, i2, f2⟩ := fix_black (fuel := fuel + 1) r1
                  ⟨n + 1, c4.2, by simp only [RB, rootRed_node] at ht ⊢; grind, by simp [rootRed]⟩
                have i1 : ids k (node false (node true a x b) p (node true sp g u)) =
                  ids k (node false (node true (node true a x b) p sp) g u) := by simp [ids, T.toList]
                rw [i1] at i2 f2
                exact ⟨h2, t2, (hstep _ _ e1).trans e2, r2, g2, i2, f1.trans f2⟩
            | R cg u g =>
              simp only [pcol] at c3
              subst c3
              simp only [RBC] at c4
              have hstep : ∀ h1 y, fixRound h x p g = some (h1, y) →
                  fixViolation (fuel + 1) h x = fixViolation fuel h1 y := by
                intro h1 y e
                simp [fixViolation, fx, par, fp, e]
              have hids : ids (L true p sp :: R false u g :: k) (node true a x b) =
                  ids k (node false u g (node true (node true a x b) p sp)) := by simp [ids, lids, rids, T.toList]
              rw [hids]
              cases hu : rootRed u with
              | true =>
                cases u with
                | leaf => simp [rootRed] at hu
                | node cu ua u ub =>
                  simp only [rootRed] at hu
                  subst hu
                  obtain ⟨h1, e1, r1, f1⟩ := recolor_RL hr
                  obtain ⟨h2, t2, e2, r2, g2, i2, f2⟩ := fixViolation_rep fuel (n := n + 1)
                    (by simp at hf; omega) r1 (by
                      simp only [RB, rootRed_node, and_true] at ht c4 ⊢
                      grind) c4.2
                  have i1 : ids k (node true (node false ua u ub) g (node false (node true a x b) p sp)) =
                    ids k (node false (node true ua u ub) g (node true (node true a x b) p sp)) := by simp [ids, T.toList]
                  rw [i1] at i2 f2
                  exact ⟨h2, t2, (hstep _ _ e1).trans e2, r2, g2, i2, f1.trans f2⟩
              | false =>
                obtain ⟨fuel, rfl⟩ : ∃ f, fuel = f + 2 := ⟨fuel - 2, by simp at hf; omega⟩
                obtain ⟨h1, e1, r1, f1⟩ := inner_RL hu hr
                obtain ⟨h2, e2, r2, f2⟩ := outer_RR hu r1
                obtain ⟨h3, t3, e3, r3, g3, i3, f3⟩ := fix_black (fuel := fuel) r2
                  ⟨n + 1, c4.2, by simp only [RB, rootRed_node] at ht ⊢; grind, by simp [rootRed]⟩
                have fx1 := r1.fields
                have fp1 := (Rep_right.1 r1).fields
                have e4 : fixViolation (fuel + 2) h1 p = fixViolation (fuel + 1) h2 x := by
                  simp [fixViolation, fx1, par, fp1, e2]
                have i1 : ids k (node false (node true u g a) x (node true b p sp)) =
                  ids k (node false u g (node true (node true a x b) p sp)) := by simp [ids, T.toList]
                have i2 : ids k (node false u g (node true a x (node true b p sp))) =
                  ids k (node false u g (node true (node true a x b) p sp)) := by simp [ids, T.toList]
                rw [i1] at i3 f3
                rw [i2] at f2
                exact ⟨h3, t3, (hstep _ _ e1).trans (e4.trans e3), r3, g3, i3, f1.trans (f2.trans f3)⟩
        | R c sp p =>
          simp only [pcol] at hpf
          subst hpf
          simp only [RBC] at hc
          obtain ⟨c1, c2, c3, c4⟩ := hc
          have fp := (Rep_right.1 hr).fields
          cases k with
          | nil => simp [pcol] at c3
          | cons f k =>
            cases f with
            | L cg g u =>
              simp only [pcol] at c3
              subst c3
              simp only [RBC] at c4
              have hstep : ∀ h1 y, fixRound h x p g = some (h1, y) →
                  fixViolation (fuel + 1) h x = fixViolation fuel h1 y := by
                intro h1 y e
                simp [fixViolation, fx, par, fp, e]
              have hids : ids (R true sp p :: L false g u :: k) (node true a x b) =
                  ids k (node false (node true sp p (node true a x b)) g u) := by simp [ids, lids, rids, T.toList]
              rw [hids]
              cases hu : rootRed u with
              | true =>
                cases u with
                | leaf => simp [rootRed] at hu
                | node cu ua u ub =>
                  simp only [rootRed] at hu
                  subst hu
                  obtain ⟨h1, e1, r1, f1⟩ := recolor_LR hr
                  obtain ⟨h2, t2, e2, r2, g2, i2, f2⟩ := fixViolation_rep fuel (n := n + 1)
                    (by simp at hf; omega) r1 (by
                      simp only [RB, rootRed_node, and_true] at ht c4 ⊢
                      grind) c4.2
                  have i1 : ids k (node true (node false sp p (node true a x b)) g (node false ua u ub)) =
                    ids k (node false (node true sp p (node true a x b)) g (node true ua u ub)) := by simp [ids, T.toList]
                  rw [i1] at i2 f2
                  exact ⟨h2, t2, (hstep _ _ e1).trans e2, r2, g2, i2, f1.trans f2⟩
              | false =>
                obtain ⟨fuel, rfl⟩ : ∃ f, fuel = f + 2 := ⟨fuel - 2, by simp at hf; omega⟩
                obtain ⟨h1, e1, r1, f1⟩ := inner_LR hu hr
                obtain ⟨h2, e2, r2, f2⟩ := outer_LL hu r1
                obtain ⟨h3, t3, e3, r3, g3, i3, f3⟩ := fix_black (fuel := fuel) r2
                  ⟨n + 1, c4.2, by simp only [RB, rootRed_node] at ht ⊢; grind, by simp [rootRed]⟩
                have fx1 := r1.fields
                have fp1 := (Rep_left.1 r1).fields
                have e4 : fixViolation (fuel + 2) h1 p = fixViolation (fuel + 1) h2 x := by
                  simp [fixViolation, fx1, par, fp1, e2]
                have i1 : ids k (node false (node true sp p a) x (node true b g u)) =
                  ids k (node false (node true sp p (node true a x b)) g u) := by simp [ids, T.toList]
                have i2 : ids k (node false (node true (node true sp p a) x b) g u) =
                  ids k (node false (node true sp p (node true a x b)) g u) := by simp [ids, T.toList]
                rw [i1] at i3 f3
                rw [i2] at f2
                exact ⟨h3, t3, (hstep _ _ e1).trans (e4.trans e3), r3, g3, i3, f1.trans (f2.trans f3)⟩
            | R cg u g =>
              simp only [pcol] at c3
              subst c3
              simp only [RBC] at c4
              have hstep : ∀ h1 y, fixRound h x p g = some (h1, y) →
                  fixViolation (fuel + 1) h x = fixViolation fuel h1 y := by
                intro h1 y e
                simp [fixViolation, fx, par, fp, e]
              have hids : ids (R true sp p :: R false u g :: k) (node true a x b) =
                  ids k (node false u g (node true sp p (node true a x b))) := by simp [ids, lids, rids, T.toList]
              rw [hids]
              cases hu : rootRed u with
              | true =>
                cases u with
                | leaf => simp [rootRed] at hu
                | node cu ua u ub =>
                  simp only [rootRed] at hu
                  subst hu
                  obtain ⟨h1, e1, r1, f1⟩ := recolor_RR hr
                  obtain ⟨h2, t2, e2, r2, g2, i2, f2⟩ := fixViolation_rep fuel (n := n + 1)
                    (by simp at hf; omega) r1 (by
                      simp only [RB, rootRed_node, and_true] at ht c4 ⊢
                      grind) c4.2
                  have i1 : ids k (node true (node false ua u ub) g (node false sp p (node true a x b))) =
                    ids k (node false (node true ua u ub) g (node true sp p (node true a x b))) := by simp [ids, T.toList]
                  rw [i1] at i2 f2
                  exact ⟨h2, t2, (hstep _ _ e1).trans e2, r2, g2, i2, f1.trans f2⟩
              | false =>
                obtain ⟨fuel, rfl⟩ : ∃ f, fuel = f + 2 := ⟨fuel - 2, by simp at hf; omega⟩
                obtain ⟨h1, e1, r1, f1⟩ := outer_RR hu hr
                obtain ⟨h2, t2, e2, r2, g2, i2, f2⟩ := fix_black (fuel := fuel + 1) r1
                  ⟨n + 1, c4.2, by simp only [RB, rootRed_node] at ht ⊢; grind, by simp [rootRed]⟩
                have i1 : ids k (node false (node true u g sp) p (node true a x b)) =
                  ids k (node false u g (node true sp p (node true a x b))) := by simp [ids, T.toList]
                rw [i1] at i2 f2
                exact ⟨h2, t2, (hstep _ _ e1).trans e2, r2, g2, i2, f1.trans f2⟩

end Verif.RbTree
