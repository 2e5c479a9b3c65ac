import Verif.Model.Forward

/-!
C24. Specification: the callback history is empty until every holder is done and then is a
singleton; the reported error is the first non-zero code among the codes of the parts.
-/

namespace Verif.Forward

/-- Counting invariant. -/
def Inv (s : State) : Prop :=
  s.remaining = (s.holders.countP Phase.open : Int) ∧
  s.callbacks.length = (if s.holders.countP Phase.open = 0 then 1 else 0)

theorem put_inv (s : State) (i : Nat) (x : Phase) (h : Inv s) (hx : s.holders[i]? = some x)
    (ho : x.open = true) : Inv (put s i) := by
  obtain ⟨h1, h2⟩ := h
  have hc := countP_set Phase.open s.holders i .done x hx
  rw [ho] at hc
  simp only [if_true, Phase.open, Bool.false_eq_true, if_false] at hc
  have hpos := countP_pos_of_get Phase.open s.holders i x hx ho
  rw [if_neg (by omega)] at h2
  unfold Inv put
  simp only
  refine ⟨by omega, ?_⟩
  by_cases hz : s.remaining - 1 = 0
  · rw [if_pos hz, if_pos (by omega)]; simp [h2]
  · rw [if_neg hz, if_neg (by omega)]; exact h2

theorem set_open_inv (s : State) (i : Nat) (x y : Phase) (h : Inv s) (hx : s.holders[i]? = some x)
    (ho : x.open = true) (hy : y.open = true) (e : Int) (rep : List Int) :
    Inv { s with error := e, holders := s.holders.set i y, reported := rep } := by
  obtain ⟨h1, h2⟩ := h
  have hc := countP_set Phase.open s.holders i y x hx
  rw [ho, hy] at hc
  unfold Inv
  simp only
  have : (s.holders.set i y).countP Phase.open = s.holders.countP Phase.open := by omega
  rw [this]; exact ⟨h1, h2⟩

theorem get_inv (s : State) (i : Nat) (h : Inv s) (hx : s.holders[i]? = some .live) :
    Inv { s with remaining := s.remaining + 1, holders := s.holders ++ [.live] } := by
  obtain ⟨h1, h2⟩ := h
  have hpos := countP_pos_of_get Phase.open s.holders i _ hx rfl
  rw [if_neg (by omega)] at h2
  unfold Inv
  simp only [List.countP_append, List.countP_cons, List.countP_nil, Phase.open, if_true]
  refine ⟨by omega, ?_⟩
  rw [if_neg (by omega)]; exact h2

theorem inv_reach (s : State) (h : Reach (· = init) Step s) : Inv s := by
  refine Reach.inv (P := Inv) ?_ ?_ s h
  · rintro s rfl; simp [Inv, init, Phase.open]
  · intro s t hs hst
    cases hst with
    | get i hx => exact get_inv s i hs hx
    | load i r hx => exact set_open_inv s i _ _ hs hx rfl rfl s.error s.reported
    | store i e r hx => exact set_open_inv s i _ _ hs hx rfl rfl _ _
    | put i hx => exact put_inv s i _ hs hx rfl
    | release i hx => exact put_inv s i _ hs hx rfl

theorem all_done_iff (s : State) :
    s.holders.countP Phase.open = 0 ↔ ∀ h ∈ s.holders, h = .done := by
  rw [List.countP_eq_zero]
  constructor
  · intro h x hx
    have := h x hx
    cases x <;> simp [Phase.open] at this ⊢
  · intro h x hx
    rw [h x hx]; simp [Phase.open]

/-- C24 (all interleavings of all holders, error update not atomic): the completion callback runs
at most once, and it has run exactly when every part has ended. -/
theorem completion_once (s : State) (h : Reach (· = init) Step s) :
    s.callbacks.length ≤ 1 ∧ (s.callbacks.length = 1 ↔ ∀ x ∈ s.holders, x = .done) := by
  obtain ⟨_, h2⟩ := inv_reach s h
  rw [← all_done_iff]
  split at h2 <;> rename_i hz
  · exact ⟨by omega, fun _ => hz, fun _ => h2⟩
  · exact ⟨by omega, fun h => by omega, fun h => absurd h hz⟩

/-- C24, soundness of the error (all interleavings): a reported error was returned by some part. -/
theorem reported_error_real (s : State) (h : Reach (· = init) Step s) :
    ∀ e ∈ s.callbacks, e ≠ 0 → e ∈ s.reported := by
  have key : (∀ e ∈ s.callbacks, e ≠ 0 → e ∈ s.reported) ∧ (s.error ≠ 0 → s.error ∈ s.reported) ∧
      (∀ e r, .loaded e r ∈ s.holders → e ≠ 0 → e ∈ s.reported) := by
    refine Reach.inv (P := fun s => (∀ e ∈ s.callbacks, e ≠ 0 → e ∈ s.reported) ∧
      (s.error ≠ 0 → s.error ∈ s.reported) ∧
      (∀ e r, .loaded e r ∈ s.holders → e ≠ 0 → e ∈ s.reported)) ?_ ?_ s h
    · rintro s rfl; simp [init]
    · rintro s t ⟨h1, h2, h3⟩ hst
      have hput : ∀ i, ((∀ e ∈ (put s i).callbacks, e ≠ 0 → e ∈ (put s i).reported) ∧
          ((put s i).error ≠ 0 → (put s i).error ∈ (put s i).reported) ∧
          (∀ e r, .loaded e r ∈ (put s i).holders → e ≠ 0 → e ∈ (put s i).reported)) := by
        intro i
        refine ⟨?_, h2, ?_⟩
        · intro e he hne
          simp only [put] at he ⊢
          split at he
          · rcases List.mem_append.1 he with he | he
            · exact h1 e he hne
            · simp at he; subst he; exact h2 hne
          · exact h1 e he hne
        · intro e r hm hne
          simp only [put] at hm ⊢
          rcases List.mem_or_eq_of_mem_set hm with hm | hm
          · exact h3 e r hm hne
          · cases hm
      cases hst with
      | get i hx =>
        refine ⟨h1, h2, ?_⟩
        intro e r hm hne
        simp at hm
        exact h3 e r hm hne
      | load i r hx =>
        refine ⟨h1, h2, ?_⟩
        intro e r' hm hne
        rcases List.mem_or_eq_of_mem_set hm with hm | hm
        · exact h3 e r' hm hne
        · cases hm; exact h2 hne
      | store i e r hx =>
        refine ⟨fun e' he' hne => by simp; exact Or.inl (h1 e' he' hne), ?_, ?_⟩
        · simp only
          split
          · rename_i hne; intro _; simp; exact Or.inl (h3 e r (List.mem_of_getElem? hx) hne)
          · intro _; simp
        · intro e' r' hm hne
          simp only
          rcases List.mem_or_eq_of_mem_set hm with hm | hm
          · simp; exact Or.inl (h3 e' r' hm hne)
          · cases hm
      | put i hx => exact hput i
      | release i hx => exact hput i
  exact key.1

/-- Specification: first non-zero code, 0 if none. -/
def firstError : List Int → Int
  | [] => 0
  | r :: rs => if r ≠ 0 then r else firstError rs

theorem firstError_append (l : List Int) (r : Int) :
    firstError (l ++ [r]) = if firstError l ≠ 0 then firstError l else r := by
  induction l with
  | nil => simp [firstError]; omega
  | cons a l ih =>
    simp only [List.cons_append, firstError]
    by_cases ha : a ≠ 0
    · simp [ha]
    · simp only [ha, if_false, ih]

/-- C24, the error code, if parts complete one at a time: the callback gets the first error
reported by any part, and 0 if all succeeded.
Missing for the full property: the same when parts complete concurrently, which is false,
see `error_lost`. -/
theorem first_error_partial (s : State) (h : Reach (· = init) SerialStep s) :
    s.callbacks.length ≤ 1 ∧ (s.callbacks.length = 1 ↔ ∀ x ∈ s.holders, x = .done) ∧
    ∀ e ∈ s.callbacks, e = firstError s.reported := by
  have hinv : Inv s ∧ s.error = firstError s.reported ∧ ∀ e ∈ s.callbacks, e = firstError s.reported := by
    refine Reach.inv (P := fun s => Inv s ∧ s.error = firstError s.reported ∧
      ∀ e ∈ s.callbacks, e = firstError s.reported) ?_ ?_ s h
    · rintro s rfl; simp [Inv, init, Phase.open, firstError]
    · rintro s t ⟨hs, h2, h3⟩ hst
      have hput : ∀ i, (put s i).error = firstError (put s i).reported ∧
          ∀ e ∈ (put s i).callbacks, e = firstError (put s i).reported := by
        intro i
        refine ⟨h2, ?_⟩
        intro e he
        simp only [put] at he ⊢
        split at he
        · rcases List.mem_append.1 he with he | he
          · exact h3 e he
          · simp at he; rw [he]; exact h2
        · exact h3 e he
      cases hst with
      | get i hx => exact ⟨get_inv s i hs hx, h2, h3⟩
      | endErr i r hx =>
        have hpos := countP_pos_of_get Phase.open s.holders i _ hx rfl
        have hcb : s.callbacks = [] := by
          have := hs.2
          rw [if_neg (by omega)] at this
          exact List.length_eq_zero_iff.1 this
        refine ⟨set_open_inv s i _ _ hs hx rfl rfl _ _, ?_, ?_⟩
        · simp only [firstError_append, h2]
        · simp [hcb]
      | put i hx => exact ⟨put_inv s i _ hs hx rfl, hput i⟩
      | release i hx => exact ⟨put_inv s i _ hs hx rfl, hput i⟩
  obtain ⟨⟨_, h2⟩, _, h3⟩ := hinv
  rw [← all_done_iff]
  refine ⟨?_, ?_, h3⟩
  · split at h2 <;> omega
  · split at h2 <;> rename_i hz
    · exact ⟨fun _ => hz, fun _ => h2⟩
    · exact ⟨fun h => by omega, fun h => absurd h hz⟩

/-- The full property fails: two parts completing concurrently, one with an error, and the
callback reports success. The request forwards one more part, both holders read the error field
before either writes it, the failing one writes -5, the other one then writes 0. -/
theorem error_lost : ∃ s, Reach (· = init) Step s ∧ s.callbacks = [0] ∧ (-5) ∈ s.reported := by
  refine ⟨⟨0, 0, [.done, .done], [-5, 0], [0]⟩, ?_, rfl, by simp⟩
  refine Reach.step (s := ⟨1, 0, [.done, .stored], [-5, 0], []⟩) ?_ (Step.put _ 1 rfl)
  refine Reach.step (s := ⟨2, 0, [.stored, .stored], [-5, 0], []⟩) ?_ (Step.put _ 0 rfl)
  refine Reach.step (s := ⟨2, -5, [.stored, .loaded 0 0], [-5], []⟩) ?_ (Step.store _ 1 0 0 rfl)
  refine Reach.step (s := ⟨2, 0, [.loaded 0 (-5), .loaded 0 0], [], []⟩) ?_ (Step.store _ 0 0 (-5) rfl)
  refine Reach.step (s := ⟨2, 0, [.loaded 0 (-5), .live], [], []⟩) ?_ (Step.load _ 1 0 rfl)
  refine Reach.step (s := ⟨2, 0, [.live, .live], [], []⟩) ?_ (Step.load _ 0 (-5) rfl)
  refine Reach.step (s := init) (Reach.init rfl) (Step.get init 0 rfl)

/-! Non-vacuity: a serial run with an error and two parts. -/
example : ∃ s, Reach (· = init) SerialStep s ∧ s.callbacks = [-5] ∧ s.reported = [0, -5] := by
  refine ⟨⟨0, -5, [.done, .done], [0, -5], [-5]⟩, ?_, rfl, rfl⟩
  refine Reach.step (s := ⟨1, -5, [.done, .stored], [0, -5], []⟩) ?_ (SerialStep.put _ 1 rfl)
  refine Reach.step (s := ⟨1, 0, [.done, .live], [0], []⟩) ?_ (SerialStep.endErr _ 1 (-5) rfl)
  refine Reach.step (s := ⟨2, 0, [.stored, .live], [0], []⟩) ?_ (SerialStep.put _ 0 rfl)
  refine Reach.step (s := ⟨2, 0, [.live, .live], [], []⟩) ?_ (SerialStep.endErr _ 0 0 rfl)
  exact Reach.step (s := init) (Reach.init rfl) (SerialStep.get init 0 rfl)

end Verif.Forward
