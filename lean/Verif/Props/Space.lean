import Verif.Lemma.Space
import Verif.Props.IdxList

/-!
Where the cache lines for a request come from: minimum sizes (C11), order of sources, priority and
all-or-nothing (C12).
-/

namespace Verif.Space

/-! ## C11: minimum sizes -/

/-- C11. Making room for one request, whatever the number of lines the searches find, leaves every
class with at least its minimum size, or with what it had if that was less. -/
theorem min_respected (orc : Nat → Nat) (g : Cfg) (t : Nat) (pe : Bool) (s : St) (need c : Nat) :
    min (s.occ c) ((g.cls c).minPct * g.lines / 100) ≤ (remap orc g t pe s need).1.occ c := by
  unfold remap
  dsimp only
  split
  · unfold evictPart
    dsimp only
    split
    · exact Nat.min_le_left _ _
    · have hc := calculate_le g s t need
      by_cases h0 : s.occ t ≤ g.minSize t
      · have hz : calculate g s t need = 0 := by unfold calculate; rw [if_pos h0]
        have ho := take_occ orc t s (some t) (calculate g s t need) c
        have hg := evOf_le orc s (some t) (calculate g s t need)
        have hz' : (evOf orc s (some t) (calculate g s t need)).got = 0 := by omega
        rw [hz'] at ho
        have : (take orc t s (some t) (calculate g s t need)).1.occ c = s.occ c := by
          rw [ho]; split <;> split <;> omega
        rw [this]; exact Nat.min_le_left _ _
      · exact (take_moves orc g t s t _ (by omega)).keep c
  · unfold remapDo
    dsimp only
    have h0 : Moves g t s (if s.free > 0 then take orc t s none need else (s, 0)).1
        (if s.free > 0 then take orc t s none need else (s, 0)).2 := by
      split
      · exact take_moves_free orc g t s need
      · exact Moves.refl g t s
    revert h0
    generalize (if s.free > 0 then take orc t s none need else (s, 0)) = r0
    intro h0
    split
    · exact h0.keep c
    · obtain ⟨O, pO⟩ := evictUser_pass orc g t (need - r0.2) true pinned g.order r0.1 0 (by omega)
      have h1 := h0.trans pO.moves
      split
      · exact h1.keep c
      · obtain ⟨P, pP⟩ := evictUser_pass orc g t
          (need - (r0.2 + (evictUser orc g t (need - r0.2) true pinned g.order r0.1 0).2)) false
          (g.cls t).prio g.order _ 0 (by omega)
        exact (h1.trans pP.moves).keep c

/-- The invariant behind C11 when requests do not overlap: at most one request has lines to take. -/
theorem min_respected_serial (m : Nat) (s : Race) (tr : List Race) (i : Nat) (h0 : m ≤ s.occ)
    (hmay : s.may i + m ≤ s.occ ∧ ∀ j, j ≠ i → s.may j = 0)
    (hs : List.IsChain (fun a b => RaceStep m a b ∧ ∀ j, j ≠ i → b.may j = 0) (s :: tr)) :
    ∀ s' ∈ s :: tr, m ≤ s'.occ := by
  induction tr generalizing s with
  | nil => intro s' h'; simp at h'; subst h'; exact h0
  | cons b tr ih =>
    intro s' h'
    rcases List.mem_cons.1 h' with rfl | h'
    · exact h0
    · rw [List.isChain_cons_cons] at hs
      obtain ⟨⟨hst, hb⟩, hr⟩ := hs
      have : m ≤ b.occ ∧ b.may i + m ≤ b.occ := by
        cases hst with
        | «calc» j n h hn =>
          by_cases e : i = j
          · subst e; simp only [↓reduceIte]; omega
          · simp only [if_neg e]; omega
        | takeOne j h ho =>
          have e : j = i := Decidable.byContradiction (fun e => by rw [hmay.2 j e] at h; omega)
          subst e
          simp only [↓reduceIte]; omega
        | stop j =>
          by_cases e : i = j
          · subst e; simp only [↓reduceIte]; omega
          · simp only [if_neg e]; omega
        | enter n => simp only []; omega
      exact ih b this.1 ⟨this.2, hb⟩ hr s' h'

/-- C11 fails when two requests evict at the same time from a class with a nonzero minimum: both
read the same occupancy and together take too much. (The management API only ever configures a
minimum of zero, see `IoClass`.) -/
theorem below_min_race : ∃ (m : Nat) (s s' : Race), m ≤ s.occ ∧ (∀ j, s.may j = 0) ∧
    Reach (fun a => a = s) (RaceStep m) s' ∧ s'.occ < m := by
  let s0 : Race := ⟨10, fun _ => 0⟩
  have h := Reach.step (Reach.step (Reach.step (Reach.step (Reach.step (Reach.step
      (Reach.init (init := fun a => a = s0) (step := RaceStep 8) (s := s0) rfl)
      (.calc s0 0 2 rfl (by decide))) (.calc _ 1 2 rfl (by decide)))
      (.takeOne _ 0 (by decide) (by decide))) (.takeOne _ 0 (by decide) (by decide)))
      (.takeOne _ 1 (by decide) (by decide))) (.takeOne _ 1 (by decide) (by decide))
  exact ⟨8, s0, _, by decide, fun _ => rfl, h, by decide⟩

/-! ## C12: order of sources -/

/-- The classes are configured legally: priorities are pinned or 0..255, and a removed class has
the lowest priority (`/repo/src/utils/utils_user_part.c:168-188`). -/
structure Legal (cls : Nat → Class) : Prop where
  range : ∀ c, -1 ≤ (cls c).prio ∧ (cls c).prio ≤ 255
  removed : ∀ c, (cls c).valid = false → (cls c).prio = 255

/-- The calls made for a request, in the order made: from the free list, from classes over their
maximum, then by priority. -/
structure Sources (g : Cfg) (t : Nat) (s : St) (need : Nat) (F O P : List Ev) : Prop where
  /-- The free list is asked first, once, for everything, if it is not empty. -/
  freeEv : ∀ e ∈ F, e.src = none ∧ e.asked = need ∧ e.got ≤ need
  freeAsked : F.length = if s.free > 0 then 1 else 0
  /-- Only classes above their maximum are asked next, and only for the excess. -/
  over : ∀ e ∈ O, ∃ c, e.src = some c ∧ 0 < e.asked ∧ e.asked + g.maxSize c ≤ e.before ∧
    e.asked + g.minSize c ≤ e.before ∧ e.got ≤ e.asked
  /-- Only evictable classes of no higher priority than the requester are asked last, and never
  below their minimum. -/
  byPrio : ∀ e ∈ P, ∃ c, e.src = some c ∧ 0 < e.asked ∧ (g.cls t).prio ≤ (g.cls c).prio ∧
    g.evictable c = true ∧ e.asked + g.minSize c ≤ e.before ∧ e.got ≤ e.asked
  /-- Each kind of source is used only if the ones before did not suffice. -/
  overNeed : O ≠ [] → gots F < need
  prioNeed : P ≠ [] → gots F + gots O < need
  /-- In both passes classes are asked in list order, each at most once. -/
  overOrder : (O.map (·.src)).Sublist (g.order.map some)
  prioOrder : (P.map (·.src)).Sublist (g.order.map some)
  /-- Nothing is asked beyond the need. -/
  prioAsk : ∀ l1 e l2, P = l1 ++ e :: l2 → e.asked ≤ need - (gots F + gots O + gots l1)

/-- C12. Sources of the cache lines of a request that is not confined to its own class: free lines,
then classes over their maximum, then by priority. If lines are taken by priority, no class is left
above its maximum unless its search came back short; and if the request is left short, every
class it may take from is at its minimum or its search came back short. -/
theorem sources_ordered (orc : Nat → Nat) (g : Cfg) (t : Nat) (s : St) (need : Nat) :
    ∃ F O P, (remapDo orc g t s need).1.log = (F ++ O ++ P).reverse ++ s.log ∧
      Sources g t s need F O P ∧
      (remapDo orc g t s need).2 = gots (F ++ O ++ P) ∧ gots (F ++ O ++ P) ≤ need ∧
      (gots (F ++ O ++ P) < need → ∀ c ∈ g.order.takeWhile (eligible g (g.cls t).prio),
        s.occ c ≤ g.minSize c ∨ (remapDo orc g t s need).1.occ c ≤ g.minSize c ∨
        ∃ e ∈ P, e.src = some c ∧ (e.got < e.asked ∨ e.before = e.asked + g.minSize c)) ∧
      (gots F + gots O < need → (∀ c ∈ g.order, -1 ≤ (g.cls c).prio) → ∀ c ∈ g.order,
        s.occ c ≤ max (g.maxSize c) (g.minSize c) ∨
        (remapDo orc g t s need).1.occ c ≤ max (g.maxSize c) (g.minSize c) ∨
        ∃ e ∈ O, e.src = some c ∧
          (e.got < e.asked ∨ e.before = e.asked + max (g.maxSize c) (g.minSize c))) := by
  have gapp : ∀ a b : List Ev, gots (a ++ b) = gots a + gots b := fun a b => by
    simp [gots, List.sum_append]
  unfold remapDo
  dsimp only
  have h0 : ∃ F : List Ev, (if s.free > 0 then take orc t s none need else (s, 0)).1.log
      = F.reverse ++ s.log ∧ (if s.free > 0 then take orc t s none need else (s, 0)).2 = gots F ∧
      (∀ e ∈ F, e.src = none ∧ e.asked = need ∧ e.got ≤ need) ∧
      F.length = (if s.free > 0 then 1 else 0) ∧ gots F ≤ need ∧
      Moves g t s (if s.free > 0 then take orc t s none need else (s, 0)).1 (gots F) := by
    have hg := evOf_le orc s none need
    split
    · refine ⟨[evOf orc s none need], rfl, by simp [gots, take_got], ?_, by simp,
        by simp [gots]; omega, ?_⟩
      · intro e he; simp at he; subst he; exact ⟨rfl, rfl, hg.1⟩
      · have := take_moves_free orc g t s need
        rw [take_got] at this
        simpa [gots] using this
    · exact ⟨[], rfl, rfl, by simp, by simp, by simp [gots], Moves.refl g t s⟩
  revert h0
  generalize (if s.free > 0 then take orc t s none need else (s, 0)) = r0
  rintro ⟨F, hlog, hgot, hev, hlen, hle, hmv⟩
  by_cases hc : r0.2 ≥ need
  · rw [if_pos hc]
    refine ⟨F, [], [], by simpa using hlog, ⟨hev, hlen, by simp, by simp, by simp, by simp, by simp,
      by simp, by simp⟩, by simpa using hgot, by simpa using hle, ?_, ?_⟩
    · intro hlt; simp at hlt; omega
    · intro hlt; simp [gots] at hlt; simp only [gots] at hgot; omega
  rw [if_neg hc]
  obtain ⟨O, pO⟩ := evictUser_pass orc g t (need - r0.2) true pinned g.order r0.1 0 (by omega)
  revert pO
  generalize evictUser orc g t (need - r0.2) true pinned g.order r0.1 0 = r1
  intro pO
  have hOsum : r1.2 = gots O := by have := pO.sum; omega
  have hOle := pO.le
  have hover : ∀ e ∈ O, ∃ c, e.src = some c ∧ 0 < e.asked ∧ e.asked + g.maxSize c ≤ e.before ∧
      e.asked + g.minSize c ≤ e.before ∧ e.got ≤ e.asked := by
    intro e he
    obtain ⟨c, h1, h2, h3, h4, h5, h6, h7⟩ := pO.each e he
    exact ⟨c, h1, h3, h6 rfl, h4, h2⟩
  by_cases hc1 : r0.2 + r1.2 ≥ need
  · rw [if_pos hc1]
    refine ⟨F, O, [], ?_, ⟨hev, hlen, hover, by simp, fun _ => by omega, by simp, pO.order, by simp,
      by simp⟩, ?_, ?_, ?_, fun _ => by omega⟩
    · show r1.1.log = _
      rw [pO.log, hlog]; simp
    · show r0.2 + r1.2 = _
      rw [List.append_nil, gapp, hgot, hOsum]
    · rw [List.append_nil, gapp]; omega
    · rw [List.append_nil, gapp]; intro hlt; omega
  rw [if_neg hc1]
  obtain ⟨P, pP⟩ := evictUser_pass orc g t (need - (r0.2 + r1.2)) false (g.cls t).prio g.order
    r1.1 0 (by omega)
  revert pP
  generalize evictUser orc g t (need - (r0.2 + r1.2)) false (g.cls t).prio g.order r1.1 0 = r2
  intro pP
  have hPsum : r2.2 = gots P := by have := pP.sum; omega
  have hPle := pP.le
  refine ⟨F, O, P, ?_, ⟨hev, hlen, hover, ?_, fun _ => by omega, fun _ => by omega, pO.order,
    pP.order, ?_⟩, ?_, ?_, ?_, ?_⟩
  · show r2.1.log = _
    rw [pP.log, pO.log, hlog]; simp
  · intro e he
    obtain ⟨c, h1, h2, h3, h4, h5, h6, h7⟩ := pP.each e he
    exact ⟨c, h1, h3, h5, h7 rfl, h4, h2⟩
  · intro l1 e l2 hl
    have := pP.need_each l1 e l2 hl
    omega
  · show r0.2 + r1.2 + r2.2 = _
    rw [gapp, gapp, hgot, hOsum, hPsum]
  · rw [gapp, gapp]; omega
  · intro hlt c hcm
    rw [gapp, gapp] at hlt
    rcases pP.full rfl (by omega) c hcm with (h | h) | h
    · by_cases hct : c = t
      · left
        subst hct
        have h1 := hmv.up
        have h2 := pO.moves.up
        omega
      · right; left
        show r2.1.occ c ≤ _
        have h2 := pP.moves.down c hct
        omega
    · exact Or.inr (Or.inl h.2)
    · exact Or.inr (Or.inr h)
  · intro hlt hpr c hcm
    rcases pO.fullOver rfl hpr (by omega) c hcm with (h | h) | h
    · by_cases hct : c = t
      · left
        subst hct
        have h1 := hmv.up
        omega
      · right; left
        show r2.1.occ c ≤ _
        have h1 := pO.moves.down c hct
        have h2 := pP.moves.down c hct
        omega
    · right; left
      show r2.1.occ c ≤ _
      have h2 := pP.moves.down c h.1
      omega
    · exact Or.inr (Or.inr h)

theorem cmp_consistent (cls : Nat → Class) (occ : Nat → Nat) :
    IdxList.Consistent (cmp cls occ) := by
  refine ⟨fun a b => ?_, fun a b c => ?_⟩
  · unfold cmp; dsimp only; split <;> split <;> omega
  · unfold cmp; dsimp only; split <;> split <;> split <;> omega

/-- The order of classes after sorting: by rank, highest rank first. -/
theorem order_rank (lines : Nat) (cls : Nat → Class) (ids : List Nat) (occ0 : Nat → Nat) :
    (sortParts lines cls ids occ0).order.Pairwise
      (fun a b => rank (cls b) (occ0 b) ≤ rank (cls a) (occ0 a)) ∧
    (sortParts lines cls ids occ0).order.Perm ids := by
  refine ⟨?_, IdxList.sorted_perm _ _⟩
  have h := (IdxList.foldl_sorted (cmp_consistent cls occ0) ids [] List.Pairwise.nil).1
  refine List.Pairwise.imp ?_ h
  intro a b hab
  unfold cmp at hab
  dsimp only at hab
  split at hab <;> omega

/-- C12. With the classes sorted as the code sorts them, the classes visited by priority are
exactly those that may be evicted from and whose priority is no higher than the requester's. -/
theorem eligible_exact (lines : Nat) (cls : Nat → Class) (ids : List Nat) (occ0 : Nat → Nat)
    (hl : Legal cls) (t : Nat) :
    (sortParts lines cls ids occ0).order.takeWhile
        (eligible (sortParts lines cls ids occ0) (cls t).prio) =
      (sortParts lines cls ids occ0).order.filter
        (eligible (sortParts lines cls ids occ0) (cls t).prio) := by
  have h := (order_rank lines cls ids occ0).1
  have hg : ∀ c, eligible (sortParts lines cls ids occ0) (cls t).prio c = true ↔
      (cls t).prio ≤ (cls c).prio ∧ flagOf (cls c) (occ0 c) = true := by
    intro c
    show (decide _ && _) = true ↔ _
    rw [Bool.and_eq_true, decide_eq_true_eq]
    rfl
  revert h hg
  generalize (sortParts lines cls ids occ0).order = l
  generalize eligible (sortParts lines cls ids occ0) (cls t).prio = p
  intro h hg
  induction l with
  | nil => rfl
  | cons a l ih =>
    rw [List.pairwise_cons] at h
    rw [List.takeWhile_cons, List.filter_cons]
    split
    · rw [ih h.2]
    · rename_i ha
      symm
      rw [List.filter_eq_nil_iff]
      intro b hb hpb
      apply ha
      rw [hg] at hpb ⊢
      have hr := h.1 b hb
      have ra := hl.range a; have rb := hl.range b; have rt := hl.range t
      have ma := hl.removed a; have mb := hl.removed b
      unfold rank at hr
      unfold flagOf pinned at hpb ⊢
      cases hva : (cls a).valid <;> cases hvb : (cls b).valid <;>
        simp only [hva, hvb, Bool.false_eq_true, ↓reduceIte, decide_eq_true_eq, ne_eq,
          forall_const, reduceCtorEq, false_implies] at hr hpb ma mb ⊢
      · have : ¬ occ0 a = 0 := by
          intro e; rw [e] at hr; simp [hpb.2] at hr
        exact ⟨by omega, this⟩
      · have : ¬ occ0 a = 0 := by
          intro e; rw [e] at hr; simp at hr; omega
        exact ⟨by omega, this⟩
      · simp [hpb.2] at hr; omega
      · omega

/-- C12. Pinned classes, and classes of higher priority (smaller number) than the requester, lose
lines only to free space above their maximum; and by priority the lowest one goes first. -/
theorem priority_order (orc : Nat → Nat) (lines : Nat) (cls : Nat → Class) (ids : List Nat)
    (occ0 : Nat → Nat) (t : Nat) (s : St) (need : Nat) :
    let g := sortParts lines cls ids occ0
    ∃ F O P, (remapDo orc g t s need).1.log = (F ++ O ++ P).reverse ++ s.log ∧
      Sources g t s need F O P ∧
      (∀ e ∈ P, ∃ c, e.src = some c ∧ (cls t).prio ≤ (cls c).prio ∧
        ((cls c).valid = true → (cls c).prio ≠ -1)) ∧
      (P.map (·.src)).Pairwise (fun a b => ∀ c d, a = some c → b = some d →
        (cls c).valid = true → (cls d).valid = true → (cls d).prio ≤ (cls c).prio) := by
  intro g
  obtain ⟨F, O, P, h1, h2, _⟩ := sources_ordered orc g t s need
  refine ⟨F, O, P, h1, h2, ?_, ?_⟩
  · intro e he
    obtain ⟨c, hc1, _, hc2, hc3, _⟩ := h2.byPrio e he
    refine ⟨c, hc1, hc2, fun hv => ?_⟩
    have : flagOf (cls c) (occ0 c) = true := hc3
    unfold flagOf pinned at this
    simpa [hv] using this
  · have ho := (order_rank lines cls ids occ0).1
    have hm : (g.order.map some).Pairwise (fun a b => ∀ c d, a = some c → b = some d →
        (cls c).valid = true → (cls d).valid = true → (cls d).prio ≤ (cls c).prio) := by
      rw [List.pairwise_map]
      refine List.Pairwise.imp ?_ ho
      intro a b hab c d hc hd hvc hvd
      cases hc; cases hd
      unfold rank at hab
      simpa [hvc, hvd] using hab
    exact hm.sublist h2.prioOrder

/-- C12. A request confined to its own class takes lines from no other class, and only if its class
can give all of them. -/
theorem own_class_only (orc : Nat → Nat) (g : Cfg) (t : Nat) (s : St) (need : Nat) :
    let r := evictPart orc g t s need
    (r = (s, 0) ∨ ∃ e, r.1.log = e :: s.log ∧ e.src = some t ∧ e.asked = need ∧
      need ≤ s.occ t - g.minSize t) ∧
    ∀ c, r.1.occ c = s.occ c := by
  intro r
  show (evictPart orc g t s need = _ ∨ _) ∧ _
  have hr : r = evictPart orc g t s need := rfl
  rw [hr]
  unfold evictPart
  dsimp only
  have hc := calculate_le g s t need
  split
  · exact ⟨Or.inl rfl, fun _ => rfl⟩
  · have he : calculate g s t need = need := by omega
    refine ⟨Or.inr ⟨_, take_log _ _ _ _ _, rfl, he, by omega⟩, ?_⟩
    intro c
    rw [take_occ]
    have hg := evOf_le orc s (some t) (calculate g s t need)
    have hs : s.size (some t) = s.occ t := rfl
    rw [hs] at hg
    by_cases e : c = t
    · subst e; simp only [↓reduceIte]; omega
    · have : ¬ (some t = some c) := fun h => e (by cases h; rfl)
      simp [this, e]

/-- C12. All or nothing: the request is served from the cache exactly if it got all the lines it
needs; it never gets more. -/
theorem all_or_nothing (orc : Nat → Nat) (g : Cfg) (t : Nat) (pe : Bool) (s : St) (need : Nat) :
    ∃ L, (remap orc g t pe s need).1.log = L ++ s.log ∧ gots L ≤ need ∧
      ((remap orc g t pe s need).2 = true ↔ gots L = need) := by
  have grev : ∀ a : List Ev, gots a.reverse = gots a := fun a => by
    unfold gots; rw [List.map_reverse, List.sum_reverse]
  unfold remap
  dsimp only
  cases pe with
  | false =>
    obtain ⟨F, O, P, h1, _, h3, h4, _⟩ := sources_ordered orc g t s need
    refine ⟨_, h1, by rw [grev]; exact h4, ?_⟩
    rw [grev]
    simp only [Bool.false_eq_true, ↓reduceIte, decide_eq_true_eq, h3]
    omega
  | true =>
    simp only [↓reduceIte]
    unfold evictPart
    dsimp only
    have hc := calculate_le g s t need
    split
    · refine ⟨[], rfl, by simp [gots], ?_⟩
      simp [gots]; omega
    · refine ⟨[_], by rw [take_log]; rfl, ?_, ?_⟩
      · have := evOf_le orc s (some t) (calculate g s t need)
        simp only [gots, List.map_cons, List.map_nil, List.sum_cons, List.sum_nil]
        omega
      · have := evOf_le orc s (some t) (calculate g s t need)
        rw [decide_eq_true_eq, take_got]
        simp only [gots, List.map_cons, List.map_nil, List.sum_cons, List.sum_nil]
        omega

/-- A request never pushes its own class above the maximum, counting also the lines it is about to
move over from other classes; a class already above does not grow. -/
theorem max_respected (orc : Nat → Nat) (g : Cfg) (t : Nat) (s : St) (repart need : Nat) :
    (prepareMiss orc g t s repart need).1.occ t ≤ s.occ t ∨
    (prepareMiss orc g t s repart need).1.occ t + repart ≤ g.maxSize t := by
  unfold prepareMiss remap
  dsimp only
  cases hh : hasSpace g t s repart need with
  | false =>
    left
    simp only [Bool.not_false, ↓reduceIte]
    exact Nat.le_of_eq ((own_class_only orc g t s need).2 t)
  | true =>
    right
    simp only [Bool.not_true, Bool.false_eq_true, ↓reduceIte]
    have hsp : s.occ t + (repart + need) ≤ g.maxSize t := by simpa [hasSpace] using hh
    have hgrow : (remapDo orc g t s need).1.occ t ≤ s.occ t + need := by
      unfold remapDo
      dsimp only
      have h0 : Moves g t s (if s.free > 0 then take orc t s none need else (s, 0)).1
          (if s.free > 0 then take orc t s none need else (s, 0)).2 ∧
          (if s.free > 0 then take orc t s none need else (s, 0)).2 ≤ need := by
        split
        · exact ⟨take_moves_free orc g t s need, (evOf_le orc s none need).1⟩
        · exact ⟨Moves.refl g t s, Nat.zero_le _⟩
      revert h0
      generalize (if s.free > 0 then take orc t s none need else (s, 0)) = r0
      intro h0
      have g0 := h0.1.grow
      split
      · omega
      · obtain ⟨O, pO⟩ := evictUser_pass orc g t (need - r0.2) true pinned g.order r0.1 0
          (by omega)
        have h1 := pO.moves.grow
        have s1 := pO.sum
        have l1 := pO.le
        split
        · show _ ≤ _; dsimp only; omega
        · obtain ⟨P, pP⟩ := evictUser_pass orc g t
            (need - (r0.2 + (evictUser orc g t (need - r0.2) true pinned g.order r0.1 0).2)) false
            (g.cls t).prio g.order
            (evictUser orc g t (need - r0.2) true pinned g.order r0.1 0).1 0 (by omega)
          have h2 := pP.moves.grow
          have s2 := pP.sum
          have l2 := pP.le
          dsimp only; omega
    omega

/-! ## A concrete case: four classes, one pinned, one over its maximum -/

/-- Class 0 is the requester (priority 3), class 1 is pinned, class 2 has priority 5 and exceeds
its maximum of 10 %, class 3 priority 1; class 4 was removed but still holds lines. -/
def exCls : Nat → Class
  | 1 => ⟨true, -1, 0, 100⟩
  | 2 => ⟨true, 5, 4, 10⟩
  | 3 => ⟨true, 1, 0, 100⟩
  | 4 => ⟨false, 255, 0, 100⟩
  | _ => ⟨true, 3, 0, 100⟩

/-- Occupancies: 2 free lines, 98 used ones. -/
def exSt : St :=
  { occ := fun c => if c = 0 then 10 else if c = 1 then 40 else if c = 2 then 15 else
      if c = 3 then 30 else if c = 4 then 3 else 0, free := 2, log := [] }

/-- The configuration after sorting. -/
def exCfg : Cfg := sortParts 100 exCls [0, 1, 2, 3, 4] exSt.occ

theorem exLegal : Legal exCls := by
  refine ⟨fun c => ?_, fun c h => ?_⟩
  · unfold exCls; split <;> decide
  · unfold exCls at h ⊢; split at h <;> simp_all

/-- The order found and the sources of twelve lines: 2 free, 5 over the maximum of class 2, then 3
of the removed class and 2 of class 2, never class 1 or 3. -/
example : exCfg.order = [4, 2, 0, 3, 1] ∧
    ((remap (fun _ => 100) exCfg 0 false exSt 12).1.log.reverse.map fun e => (e.src, e.got)) =
      [(none, 2), (some 2, 5), (some 4, 3), (some 2, 2)] ∧
    (remap (fun _ => 100) exCfg 0 false exSt 12).2 = true := by decide +kernel

/-- The search of class 4 finds only one line; the request is still served from class 2 and its
own class. -/
example : ((remap (fun i => if i = 2 then 1 else 100) exCfg 0 false exSt 20).1.log.reverse.map
    fun e => (e.src, e.got)) =
      [(none, 2), (some 2, 5), (some 4, 1), (some 2, 6), (some 0, 6)] := by decide +kernel

end Verif.Space
