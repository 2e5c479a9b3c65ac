/-! General list lemmas used by the concurrency proofs. -/

namespace Verif

theorem countP_set {α} (p : α → Bool) (l : List α) (i : Nat) (a x : α) (h : l[i]? = some x) :
    (l.set i a).countP p + (if p x then 1 else 0) = l.countP p + (if p a then 1 else 0) := by
  induction l generalizing i with
  | nil => simp at h
  | cons b l ih =>
    cases i with
    | zero =>
      simp at h; subst h
      simp only [List.set_cons_zero, List.countP_cons]; omega
    | succ i =>
      simp at h
      have := ih i h
      simp only [List.set_cons_succ, List.countP_cons]; omega

theorem countP_pos_of_get {α} (p : α → Bool) (l : List α) (i : Nat) (x : α) (h : l[i]? = some x)
    (hp : p x = true) : 0 < l.countP p := by
  rw [List.countP_pos_iff]
  exact ⟨x, List.mem_of_getElem? h, hp⟩

/-- Reachability by a step relation. -/
inductive Reach {σ : Type} (init : σ → Prop) (step : σ → σ → Prop) : σ → Prop
  | init {s} : init s → Reach init step s
  | step {s t} : Reach init step s → step s t → Reach init step t

theorem Reach.inv {σ : Type} {init : σ → Prop} {step : σ → σ → Prop} {P : σ → Prop}
    (h0 : ∀ s, init s → P s) (hs : ∀ s t, P s → step s t → P t) :
    ∀ s, Reach init step s → P s := by
  intro s h
  induction h with
  | init h => exact h0 _ h
  | step _ hst ih => exact hs _ _ ih hst

end Verif
