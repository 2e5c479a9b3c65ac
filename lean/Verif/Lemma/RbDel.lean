import Verif.Lemma.RbFix

/-! # Repairing a red-black tree before the removal of a black leaf -/

namespace Verif.RbTree

open T Fr

theorem Frame.cast {h h' S S'} (f : Frame h h' S) (e : S = S') : Frame h h' S' := e ▸ f

theorem redSibling_L {h k c p sn y sf ct ta x tb fuel}
    (hr : Rep h (L c p (node true sn y sf) :: k) (node ct ta x tb)) :
    ∃ h', fixDoubleBlack (fuel + 1) h x = fixDoubleBlack fuel h' x ∧
      Rep h' (L true p sn :: L false y sf :: k) (node ct ta x tb) ∧
      Frame h h' (ids k (node c (node ct ta x tb) p (node true sn y sf))) := by
  have hp := Rep_left.1 hr
  have hs := Rep_right.2 hp
  have fx := hr.fields
  have fp := hp.fields
  have fs := hs.fields
  simp only [rootp_node, par] at fx fp fs
  have hxy : x ≠ y ∧ p ≠ y ∧ p ≠ x := by
    have := hp.nodup
    simp only [ids, T.toList, List.nodup_append, List.nodup_cons, List.mem_append,
      List.mem_cons] at this
    clear hr hp hs fx fp fs; grind
  have hsib : sibling h x = some y := by
    simp [sibling, fx, fp, hxy.1, Ne.symm hxy.1]
  have r1 := setRed_rep true hp
  have r2 := Rep_right.1 (setRed_rep false (Rep_right.2 r1))
  obtain ⟨h', e, r, f⟩ := rotateLeft_rep r2
  refine ⟨h', ?_, Rep_left.2 (Rep_left.2 r), ?_⟩
  · have : (setRed (setRed h p true) y false).left p = h.left p := rfl
    simp [fixDoubleBlack, fx, hsib, fs, this, fp, e, hxy.1, Ne.symm hxy.1]
  · exact (setRed_frame h p true _).trans ((setRed_frame _ y false _).trans
      (f.cast (by simp [ids, lids, rids, T.toList])))

theorem nearRed_L {h k c p na z nb y sf ct ta x tb fuel}
    (hr : Rep h (L c p (node false (node true na z nb) y sf) :: k) (node ct ta x tb)) :
    ∃ h', fixDoubleBlack (fuel + 1) h x = some h' ∧
      Rep h' (L false p na :: L c z (node false nb y sf) :: k) (node ct ta x tb) ∧
      Frame h h' (ids k (node c (node ct ta x tb) p (node false (node true na z nb) y sf))) := by
  have hp := Rep_left.1 hr
  have hs := Rep_right.2 hp
  have fx := hr.fields
  have fp := hp.fields
  have fs := hs.fields
  simp only [rootp_node, par] at fx fp fs
  have hxy : x ≠ y ∧ p ≠ y ∧ p ≠ x := by
    have := hp.nodup
    simp only [ids, T.toList, List.nodup_append, List.nodup_cons, List.mem_append,
      List.mem_cons] at this
    clear hr hp hs fx fp fs; grind
  have hsib : sibling h x = some y := by
    simp [sibling, fx, fp, hxy.1, Ne.symm hxy.1]
  have hz := Rep_left.2 hs
  have fz := hz.fields
  simp only [par] at fz
  have hzy : z ≠ p := by
    have := hp.nodup
    simp only [ids, T.toList, List.nodup_append, List.nodup_cons, List.mem_append,
      List.mem_cons] at this
    clear hr hp hs fx fp fs hz fz; grind
  -- the nephew takes the colour of the parent
  have r1 := setRed_rep c hz
  obtain ⟨h1, e1, r2, f1⟩ := rotateRight_rep (Rep_left.1 r1)
  have r3 := Rep_right.1 r2
  have hpx : h1.parent x = some p := (Rep_left.2 r3).fields.2.2.2
  obtain ⟨h2, e2, r4, f2⟩ := rotateLeft_rep r3
  have r5 := Rep_left.2 r4
  have hpx2 : h2.parent x = some p := (Rep_left.2 r5).fields.2.2.2
  refine ⟨setRed h2 p false, ?_, Rep_left.2 (setRed_rep false r5), ?_⟩
  · have hl : (setRed h z c).left = h.left := rfl
    simp [fixDoubleBlack, fx, hsib, fs, fp, isRed, fz, fixLeftRed, e1, hpx, e2, hpx2,
      hxy.1, Ne.symm hxy.1]
  · exact (setRed_frame h z c _).trans ((f1.cast (by simp [ids, lids, rids, T.toList])).trans
      ((f2.cast (by simp [ids, T.toList])).trans (setRed_frame _ _ _ _)))

theorem farRed_L {h k c p fa z fb y sn ct ta x tb fuel} (hnear : rootRed sn = false)
    (hr : Rep h (L c p (node false sn y (node true fa z fb)) :: k) (node ct ta x tb)) :
    ∃ h', fixDoubleBlack (fuel + 1) h x = some h' ∧
      Rep h' (L false p sn :: L c y (node false fa z fb) :: k) (node ct ta x tb) ∧
      Frame h h' (ids k (node c (node ct ta x tb) p (node false sn y (node true fa z fb)))) := by
  have hp := Rep_left.1 hr
  have hs := Rep_right.2 hp
  have fx := hr.fields
  have fp := hp.fields
  have fs := hs.fields
  simp only [rootp_node, par] at fx fp fs
  have hxy : x ≠ y ∧ p ≠ y ∧ p ≠ x := by
    have := hp.nodup
    simp only [ids, T.toList, List.nodup_append, List.nodup_cons, List.mem_append,
      List.mem_cons] at this
    clear hr hp hs fx fp fs; grind
  have hsib : sibling h x = some y := by
    simp [sibling, fx, fp, hxy.1, Ne.symm hxy.1]
  have hz := Rep_right.2 hs
  have fz := hz.fields
  simp only [par] at fz
  have hzy : z ≠ p ∧ z ≠ y := by
    have := hp.nodup
    simp only [ids, T.toList, List.nodup_append, List.nodup_cons, List.mem_append,
      List.mem_cons] at this
    clear hr hp hs fx fp fs hz fz; grind
  have r1 := Rep_right.1 (setRed_rep false hz)
  have r2 := Rep_right.1 (setRed_rep c r1)
  obtain ⟨h2, e2, r4, f2⟩ := rotateLeft_rep r2
  have r5 := Rep_left.2 r4
  have hpx2 : h2.parent x = some p := (Rep_left.2 r5).fields.2.2.2
  refine ⟨setRed h2 p false, ?_, Rep_left.2 (setRed_rep false r5), ?_⟩
  · have hl : (setRed h z false).red p = c := by simp [setRed, upd, Ne.symm hzy.1, fp]
    have hl2 := hs.isRed_left
    rw [hnear] at hl2
    simp [fixDoubleBlack, fx, hsib, fs, fp, hl2, fixRightRed, hl, e2, hpx2,
      hxy.1, Ne.symm hxy.1]
    simp [isRed, fz]
  · exact (setRed_frame h z false _).trans ((setRed_frame _ y c _).trans
      ((f2.cast (by simp [ids, T.toList])).trans (setRed_frame _ _ _ _)))

theorem blackNephews_L {h k c p sn y sf ct ta x tb fuel} (hn : rootRed sn = false)
    (hf : rootRed sf = false) (hr : Rep h (L c p (node false sn y sf) :: k) (node ct ta x tb)) :
    ∃ h', fixDoubleBlack (fuel + 1) h x =
        (if c then some (setRed h' p false) else fixDoubleBlack fuel h' p) ∧
      Rep h' k (node c (node ct ta x tb) p (node true sn y sf)) ∧
      Frame h h' (ids k (node c (node ct ta x tb) p (node false sn y sf))) := by
  have hp := Rep_left.1 hr
  have hs := Rep_right.2 hp
  have fx := hr.fields
  have fp := hp.fields
  have fs := hs.fields
  simp only [rootp_node, par] at fx fp fs
  have hxy : x ≠ y ∧ p ≠ y ∧ p ≠ x := by
    have := hp.nodup
    simp only [ids, T.toList, List.nodup_append, List.nodup_cons, List.mem_append,
      List.mem_cons] at this
    clear hr hp hs fx fp fs; grind
  have hsib : sibling h x = some y := by
    simp [sibling, fx, fp, hxy.1, Ne.symm hxy.1]
  have hl2 := hs.isRed_left
  have hr2 := hs.isRed_right
  rw [hn] at hl2
  rw [hf] at hr2
  refine ⟨setRed h y true, ?_, Rep_right.1 (setRed_rep true hs), setRed_frame _ _ _ _⟩
  have hl : (setRed h y true).red p = c := by simp [setRed, upd, hxy.2.1, fp]
  simp [fixDoubleBlack, fx, hsib, fs, hl2, hr2, hl]

/-- A round with a black sibling: the loop ends, or goes on at the parent. -/
theorem round_L {h k c p sn y sf ct ta x tb fuel m} (hrb : RB (node false sn y sf) (m + 1))
    (hk : RBC k (if c then m + 1 else m + 2)) (hpk : c = true → pcol k = false)
    (hr : Rep h (L c p (node false sn y sf) :: k) (node ct ta x tb)) :
    (∃ h' k', fixDoubleBlack (fuel + 1) h x = some h' ∧ Rep h' k' (node ct ta x tb) ∧ RBC k' m ∧
      lids k' = lids (L c p (node false sn y sf) :: k) ∧ rids k' = rids (L c p (node false sn y sf) :: k) ∧ k' ≠ [] ∧ Frame h h' (ids k (node c (node ct ta x tb) p (node false sn y sf)))) ∨
    (c = false ∧ ∃ h', fixDoubleBlack (fuel + 1) h x = fixDoubleBlack fuel h' p ∧
      Rep h' k (node c (node ct ta x tb) p (node true sn y sf)) ∧ RB (node true sn y sf) m ∧
      Frame h h' (ids k (node c (node ct ta x tb) p (node false sn y sf)))) := by
  simp only [RB] at hrb
  have hkc : ∀ z w, RB z (m + 1) → rootRed z = false → RBC (L c w z :: k) (m + 1) := by
    intro z w h1 h2
    cases c
    · exact ⟨h1, by simpa using hk⟩
    · exact ⟨h1, h2, hpk rfl, by simpa using hk⟩
  cases hnf : rootRed sn with
  | true =>
    obtain ⟨na, z, nb, rfl⟩ : ∃ a z b, sn = node true a z b := by
      cases sn with
      | leaf => simp [rootRed] at hnf
      | node c a z b => simp only [rootRed] at hnf; subst hnf; exact ⟨_, _, _, rfl⟩
    obtain ⟨h', e, r, f⟩ := nearRed_L (fuel := fuel) hr
    refine Or.inl ⟨h', _, e, r, ⟨?_, hkc _ _ ?_ rfl⟩, ?_, ?_, by simp, f⟩
    · simp only [RB] at hrb; grind
    · simp only [RB] at hrb ⊢; grind
    · simp [lids, T.toList]
    · simp [rids, T.toList]
  | false =>
  cases hnf2 : rootRed sf with
  | true =>
    obtain ⟨fa, z, fb, rfl⟩ : ∃ a z b, sf = node true a z b := by
      cases sf with
      | leaf => simp [rootRed] at hnf2
      | node c a z b => simp only [rootRed] at hnf2; subst hnf2; exact ⟨_, _, _, rfl⟩
    obtain ⟨h', e, r, f⟩ := farRed_L (fuel := fuel) hnf hr
    refine Or.inl ⟨h', _, e, r, ⟨?_, hkc _ _ ?_ rfl⟩, ?_, ?_, by simp, f⟩
    · simp only [RB] at hrb; grind
    · simp only [RB] at hrb ⊢; grind
    · simp [lids, T.toList]
    · simp [rids, T.toList]
  | false =>
    obtain ⟨h', e, r, f⟩ := blackNephews_L (fuel := fuel) hnf hnf2 hr
    cases c with
    | true =>
      refine Or.inl ⟨setRed h' p false, L false p (node true sn y sf) :: k, e, Rep_left.2 (setRed_rep false r),
        ⟨?_, ?_⟩, ?_, ?_, by simp, f.trans (setRed_frame _ _ _ _)⟩
      · simp only [RB]; grind
      · simpa using hk
      · simp [lids, T.toList]
      · simp [rids, T.toList]
    | false => exact Or.inr ⟨rfl, h', e, r, by simp only [RB]; grind, f⟩

theorem redSibling_R {h k c p sn y sf ct ta x tb fuel}
    (hr : Rep h (R c (node true sf y sn) p :: k) (node ct ta x tb)) :
    ∃ h', fixDoubleBlack (fuel + 1) h x = fixDoubleBlack fuel h' x ∧
      Rep h' (R true sn p :: R false sf y :: k) (node ct ta x tb) ∧
      Frame h h' (ids k (node c (node true sf y sn) p (node ct ta x tb))) := by
  have hp := Rep_right.1 hr
  have hs := Rep_left.2 hp
  have fx := hr.fields
  have fp := hp.fields
  have fs := hs.fields
  simp only [rootp_node, par] at fx fp fs
  have hxy : x ≠ y ∧ p ≠ y ∧ p ≠ x := by
    have := hp.nodup
    simp only [ids, T.toList, List.nodup_append, List.nodup_cons, List.mem_append,
      List.mem_cons] at this
    clear hr hp hs fx fp fs; grind
  have hsib : sibling h x = some y := by
    simp [sibling, fx, fp, hxy.1, Ne.symm hxy.1]
  have r1 := setRed_rep true hp
  have r2 := Rep_left.1 (setRed_rep false (Rep_left.2 r1))
  obtain ⟨h', e, r, f⟩ := rotateRight_rep r2
  refine ⟨h', ?_, Rep_right.2 (Rep_right.2 r), ?_⟩
  · have : (setRed (setRed h p true) y false).left p = h.left p := rfl
    simp [fixDoubleBlack, fx, hsib, fs, this, fp, e, hxy.1, Ne.symm hxy.1]
  · exact (setRed_frame h p true _).trans ((setRed_frame _ y false _).trans
      (f.cast (by simp [ids, lids, rids, T.toList])))

theorem nearRed_R {h k c p na z nb y sf ct ta x tb fuel} (hfar : rootRed sf = false)
    (hr : Rep h (R c (node false sf y (node true nb z na)) p :: k) (node ct ta x tb)) :
    ∃ h', fixDoubleBlack (fuel + 1) h x = some h' ∧
      Rep h' (R false na p :: R c (node false sf y nb) z :: k) (node ct ta x tb) ∧
      Frame h h' (ids k (node c (node false sf y (node true nb z na)) p (node ct ta x tb))) := by
  have hp := Rep_right.1 hr
  have hs := Rep_left.2 hp
  have fx := hr.fields
  have fp := hp.fields
  have fs := hs.fields
  simp only [rootp_node, par] at fx fp fs
  have hxy : x ≠ y ∧ p ≠ y ∧ p ≠ x := by
    have := hp.nodup
    simp only [ids, T.toList, List.nodup_append, List.nodup_cons, List.mem_append,
      List.mem_cons] at this
    clear hr hp hs fx fp fs; grind
  have hsib : sibling h x = some y := by
    simp [sibling, fx, fp, hxy.1, Ne.symm hxy.1]
  have hz := Rep_right.2 hs
  have fz := hz.fields
  simp only [par] at fz
  have hzy : z ≠ p := by
    have := hp.nodup
    simp only [ids, T.toList, List.nodup_append, List.nodup_cons, List.mem_append,
      List.mem_cons] at this
    clear hr hp hs fx fp fs hz fz; grind
  -- the nephew takes the colour of the parent
  have r1 := setRed_rep c hz
  obtain ⟨h1, e1, r2, f1⟩ := rotateLeft_rep (Rep_right.1 r1)
  have r3 := Rep_left.1 r2
  have hpx : h1.parent x = some p := (Rep_right.2 r3).fields.2.2.2
  obtain ⟨h2, e2, r4, f2⟩ := rotateRight_rep r3
  have r5 := Rep_right.2 r4
  have hpx2 : h2.parent x = some p := (Rep_right.2 r5).fields.2.2.2
  refine ⟨setRed h2 p false, ?_, Rep_right.2 (setRed_rep false r5), ?_⟩
  · have hl : (setRed h z c).left = h.left := rfl
    have hl2 := hs.isRed_left
    rw [hfar] at hl2
    simp [fixDoubleBlack, fx, hsib, fs, fp, hl2, fixRightRed, e1, hpx, e2, hpx2,
      hxy.1, Ne.symm hxy.1]
    simp [isRed, fz]
  · exact (setRed_frame h z c _).trans ((f1.cast (by simp [ids, lids, rids, T.toList])).trans
      ((f2.cast (by simp [ids, T.toList])).trans (setRed_frame _ _ _ _)))

theorem farRed_R {h k c p fa z fb y sn ct ta x tb fuel}
    (hr : Rep h (R c (node false (node true fa z fb) y sn) p :: k) (node ct ta x tb)) :
    ∃ h', fixDoubleBlack (fuel + 1) h x = some h' ∧
      Rep h' (R false sn p :: R c (node false fa z fb) y :: k) (node ct ta x tb) ∧
      Frame h h' (ids k (node c (node false (node true fa z fb) y sn) p (node ct ta x tb))) := by
  have hp := Rep_right.1 hr
  have hs := Rep_left.2 hp
  have fx := hr.fields
  have fp := hp.fields
  have fs := hs.fields
  simp only [rootp_node, par] at fx fp fs
  have hxy : x ≠ y ∧ p ≠ y ∧ p ≠ x := by
    have := hp.nodup
    simp only [ids, T.toList, List.nodup_append, List.nodup_cons, List.mem_append,
      List.mem_cons] at this
    clear hr hp hs fx fp fs; grind
  have hsib : sibling h x = some y := by
    simp [sibling, fx, fp, hxy.1, Ne.symm hxy.1]
  have hz := Rep_left.2 hs
  have fz := hz.fields
  simp only [par] at fz
  have hzy : z ≠ p ∧ z ≠ y := by
    have := hp.nodup
    simp only [ids, T.toList, List.nodup_append, List.nodup_cons, List.mem_append,
      List.mem_cons] at this
    clear hr hp hs fx fp fs hz fz; grind
  have r1 := Rep_left.1 (setRed_rep false hz)
  have r2 := Rep_left.1 (setRed_rep c r1)
  obtain ⟨h2, e2, r4, f2⟩ := rotateRight_rep r2
  have r5 := Rep_right.2 r4
  have hpx2 : h2.parent x = some p := (Rep_right.2 r5).fields.2.2.2
  refine ⟨setRed h2 p false, ?_, Rep_right.2 (setRed_rep false r5), ?_⟩
  · have hl : (setRed h z false).red p = c := by simp [setRed, upd, Ne.symm hzy.1, fp]
    simp [fixDoubleBlack, fx, hsib, fs, fp, isRed, fz, fixLeftRed, hl, e2, hpx2,
      hxy.1, Ne.symm hxy.1]
  · exact (setRed_frame h z false _).trans ((setRed_frame _ y c _).trans
      ((f2.cast (by simp [ids, T.toList])).trans (setRed_frame _ _ _ _)))

theorem blackNephews_R {h k c p sn y sf ct ta x tb fuel} (hn : rootRed sn = false)
    (hf : rootRed sf = false) (hr : Rep h (R c (node false sf y sn) p :: k) (node ct ta x tb)) :
    ∃ h', fixDoubleBlack (fuel + 1) h x =
        (if c then some (setRed h' p false) else fixDoubleBlack fuel h' p) ∧
      Rep h' k (node c (node true sf y sn) p (node ct ta x tb)) ∧
      Frame h h' (ids k (node c (node false sf y sn) p (node ct ta x tb))) := by
  have hp := Rep_right.1 hr
  have hs := Rep_left.2 hp
  have fx := hr.fields
  have fp := hp.fields
  have fs := hs.fields
  simp only [rootp_node, par] at fx fp fs
  have hxy : x ≠ y ∧ p ≠ y ∧ p ≠ x := by
    have := hp.nodup
    simp only [ids, T.toList, List.nodup_append, List.nodup_cons, List.mem_append,
      List.mem_cons] at this
    clear hr hp hs fx fp fs; grind
  have hsib : sibling h x = some y := by
    simp [sibling, fx, fp, hxy.1, Ne.symm hxy.1]
  have hl2 := hs.isRed_left
  have hr2 := hs.isRed_right
  rw [hf] at hl2
  rw [hn] at hr2
  refine ⟨setRed h y true, ?_, Rep_left.1 (setRed_rep true hs), setRed_frame _ _ _ _⟩
  have hl : (setRed h y true).red p = c := by simp [setRed, upd, hxy.2.1, fp]
  simp [fixDoubleBlack, fx, hsib, fs, hl2, hr2, hl]

/-- A round with a black sibling: the loop ends, or goes on at the parent. -/
theorem round_R {h k c p sn y sf ct ta x tb fuel m} (hrb : RB (node false sf y sn) (m + 1))
    (hk : RBC k (if c then m + 1 else m + 2)) (hpk : c = true → pcol k = false)
    (hr : Rep h (R c (node false sf y sn) p :: k) (node ct ta x tb)) :
    (∃ h' k', fixDoubleBlack (fuel + 1) h x = some h' ∧ Rep h' k' (node ct ta x tb) ∧ RBC k' m ∧
      lids k' = lids (R c (node false sf y sn) p :: k) ∧ rids k' = rids (R c (node false sf y sn) p :: k) ∧ k' ≠ [] ∧ Frame h h' (ids k (node c (node false sf y sn) p (node ct ta x tb)))) ∨
    (c = false ∧ ∃ h', fixDoubleBlack (fuel + 1) h x = fixDoubleBlack fuel h' p ∧
      Rep h' k (node c (node true sf y sn) p (node ct ta x tb)) ∧ RB (node true sf y sn) m ∧
      Frame h h' (ids k (node c (node false sf y sn) p (node ct ta x tb)))) := by
  simp only [RB] at hrb
  have hkc : ∀ z w, RB z (m + 1) → rootRed z = false → RBC (R c z w :: k) (m + 1) := by
    intro z w h1 h2
    cases c
    · exact ⟨h1, by simpa using hk⟩
    · exact ⟨h1, h2, hpk rfl, by simpa using hk⟩
  cases hnf : rootRed sf with
  | true =>
    obtain ⟨fa, z, fb, rfl⟩ : ∃ a z b, sf = node true a z b := by
      cases sf with
      | leaf => simp [rootRed] at hnf
      | node c a z b => simp only [rootRed] at hnf; subst hnf; exact ⟨_, _, _, rfl⟩
    obtain ⟨h', e, r, f⟩ := farRed_R (fuel := fuel) hr
    refine Or.inl ⟨h', _, e, r, ⟨?_, hkc _ _ ?_ rfl⟩, ?_, ?_, by simp, f⟩
    · simp only [RB] at hrb; grind
    · simp only [RB] at hrb ⊢; grind
    · simp [lids, T.toList]
    · simp [rids, T.toList]
  | false =>
  cases hnf2 : rootRed sn with
  | true =>
    obtain ⟨nb, z, na, rfl⟩ : ∃ a z b, sn = node true a z b := by
      cases sn with
      | leaf => simp [rootRed] at hnf2
      | node c a z b => simp only [rootRed] at hnf2; subst hnf2; exact ⟨_, _, _, rfl⟩
    obtain ⟨h', e, r, f⟩ := nearRed_R (fuel := fuel) hnf hr
    refine Or.inl ⟨h', _, e, r, ⟨?_, hkc _ _ ?_ rfl⟩, ?_, ?_, by simp, f⟩
    · simp only [RB] at hrb; grind
    · simp only [RB] at hrb ⊢; grind
    · simp [lids, T.toList]
    · simp [rids, T.toList]
  | false =>
    obtain ⟨h', e, r, f⟩ := blackNephews_R (fuel := fuel) hnf2 hnf hr
    cases c with
    | true =>
      refine Or.inl ⟨setRed h' p false, R false (node true sf y sn) p :: k, e, Rep_right.2 (setRed_rep false r),
        ⟨?_, ?_⟩, ?_, ?_, by simp, f.trans (setRed_frame _ _ _ _)⟩
      · simp only [RB]; grind
      · simpa using hk
      · simp [lids, T.toList]
      · simp [rids, T.toList]
    | false => exact Or.inr ⟨rfl, h', e, r, by simp only [RB]; grind, f⟩

theorem fixDoubleBlack_rep : ∀ fuel {h k ct ta x tb m}, k.length < fuel →
    Rep h k (node ct ta x tb) → RBC k (m + 1) →
    ∃ h' k', fixDoubleBlack fuel h x = some h' ∧ Rep h' k' (node ct ta x tb) ∧ RBC k' m ∧
      lids k' = lids k ∧ rids k' = rids k ∧ (k ≠ [] → k' ≠ []) ∧ Frame h h' (ids k (node ct ta x tb))
  | 0, h, k, ct, ta, x, tb, m, hf, _, _ => by omega
  | fuel + 1, h, k, ct, ta, x, tb, m, hf, hr, hc => by
    cases k with
    | nil =>
      refine ⟨h, [], ?_, hr, trivial, rfl, rfl, id, Frame.refl _ _⟩
      simp [fixDoubleBlack, hr.fields, par]
    | cons f k =>
      simp only [List.length_cons] at hf
      cases f with
      | L c p sib =>
        have hk : RB sib (m + 1) ∧ (c = true → rootRed sib = false) ∧ (c = true → pcol k = false) ∧
            RBC k (if c then m + 1 else m + 2) := by
          cases c
          · simp only [RBC] at hc
            exact ⟨hc.1, by simp, by simp, by simpa using hc.2⟩
          · simp only [RBC] at hc
            exact ⟨hc.1, fun _ => hc.2.1, fun _ => hc.2.2.1, by simpa using hc.2.2.2⟩
        obtain ⟨k1, k2, k3, k4⟩ := hk
        cases sib with
        | leaf => simp [RB] at k1
        | node cs sl y sr =>
          have hids := ids_left k c (node ct ta x tb) p (node cs sl y sr)
          rw [hids]
          cases cs with
          | false =>
            rcases round_L (fuel := fuel) k1 k4 k3 hr with
              ⟨h', k', e, r, rb, l1, l2, l3, f⟩ | ⟨rfl, h', e, r, rb, f⟩
            · exact ⟨h', k', e, r, rb, l1, l2, fun _ => l3, f⟩
            · obtain ⟨h2, k2, e2, r2, rb2, l1, l2, l3, f2⟩ := fixDoubleBlack_rep fuel (m := m + 1)
                (by omega) r (by simpa using k4)
              refine ⟨h2, L false p (node true sl y sr) :: k2, e.trans e2, Rep_left.2 r2, ⟨rb, rb2⟩, ?_, ?_, by simp, f.trans ?_⟩
              · simp [lids, l1, T.toList]
              · simp [rids, l2, T.toList]
              · exact f2.cast (by simp [ids, T.toList])
          | true =>
            have hc0 : c = false := by
              cases c
              · rfl
              · simp [rootRed] at k2
            subst hc0
            obtain ⟨h1, e1, r1, f1⟩ := redSibling_L (fuel := fuel) hr
            obtain ⟨fuel, rfl⟩ : ∃ f, fuel = f + 1 := ⟨fuel - 1, by omega⟩
            simp only [RB] at k1
            obtain ⟨kl, kr, kl', kr'⟩ := k1
            cases sl with
            | leaf => simp [RB] at kl
            | node cn na z nb =>
              simp only [rootRed_node] at kl'
              subst kl'
              rcases round_L (fuel := fuel) (m := m) kl
                (show RBC (L false y sr :: k) (m + 1) from ⟨kr, by simpa using k4⟩)
                (fun _ => rfl) r1 with
                ⟨h', k', e, r, rb, l1, l2, l3, f⟩ | ⟨hcf, _⟩
              · refine ⟨h', k', e1.trans e, r, rb, ?_, ?_, fun _ => l3, f1.trans ?_⟩
                · rw [l1]; simp [lids, T.toList]
                · rw [l2]; simp [rids, T.toList]
                · convert f using 1; simp [ids, lids, rids, T.toList]
              · cases hcf
      | R c sib p =>
        have hk : RB sib (m + 1) ∧ (c = true → rootRed sib = false) ∧ (c = true → pcol k = false) ∧
            RBC k (if c then m + 1 else m + 2) := by
          cases c
          · simp only [RBC] at hc
            exact ⟨hc.1, by simp, by simp, by simpa using hc.2⟩
          · simp only [RBC] at hc
            exact ⟨hc.1, fun _ => hc.2.1, fun _ => hc.2.2.1, by simpa using hc.2.2.2⟩
        obtain ⟨k1, k2, k3, k4⟩ := hk
        cases sib with
        | leaf => simp [RB] at k1
        | node cs sl y sr =>
          have hids := ids_right k c (node cs sl y sr) p (node ct ta x tb)
          rw [hids]
          cases cs with
          | false =>
            rcases round_R (fuel := fuel) k1 k4 k3 hr with
              ⟨h', k', e, r, rb, l1, l2, l3, f⟩ | ⟨rfl, h', e, r, rb, f⟩
            · exact ⟨h', k', e, r, rb, l1, l2, fun _ => l3, f⟩
            · obtain ⟨h2, k2, e2, r2, rb2, l1, l2, l3, f2⟩ := fixDoubleBlack_rep fuel (m := m + 1)
                (by omega) r (by simpa using k4)
              refine ⟨h2, R false (node true sl y sr) p :: k2, e.trans e2, Rep_right.2 r2, ⟨rb, rb2⟩, ?_, ?_, by simp, f.trans ?_⟩
              · simp [lids, l1, T.toList]
              · simp [rids, l2, T.toList]
              · exact f2.cast (by simp [ids, T.toList])
          | true =>
            have hc0 : c = false := by
              cases c
              · rfl
              · simp [rootRed] at k2
            subst hc0
            obtain ⟨h1, e1, r1, f1⟩ := redSibling_R (fuel := fuel) hr
            obtain ⟨fuel, rfl⟩ : ∃ f, fuel = f + 1 := ⟨fuel - 1, by omega⟩
            simp only [RB] at k1
            obtain ⟨kl, kr, kl', kr'⟩ := k1
            cases sr with
            | leaf => simp [RB] at kr
            | node cn na z nb =>
              simp only [rootRed_node] at kr'
              subst kr'
              rcases round_R (fuel := fuel) (m := m) kr
                (show RBC (R false sl y :: k) (m + 1) from ⟨kl, by simpa using k4⟩)
                (fun _ => rfl) r1 with
                ⟨h', k', e, r, rb, l1, l2, l3, f⟩ | ⟨hcf, _⟩
              · refine ⟨h', k', e1.trans e, r, rb, ?_, ?_, fun _ => l3, f1.trans ?_⟩
                · rw [l1]; simp [lids, T.toList]
                · rw [l2]; simp [rids, T.toList]
                · convert f using 1; simp [ids, lids, rids, T.toList]
              · cases hcf

end Verif.RbTree
