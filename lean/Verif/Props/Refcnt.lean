import Verif.Model.Refcnt

/-!
C10. No entry after freeze; callback at most once per registration, and it does run; it runs only
when nobody is inside - false in general (`fires_with_user_inside`), true when no user sits
between its final decrement and its test of the callback flag (`fires_when_empty_partial`).
-/

namespace Verif.Refcnt

/-- User holds a count. -/
def UPC.holds : UPC → Bool
  | .incd | .inside | .backing => true
  | _ => false

/-- Quiescer holds a count. -/
def MPC.holds : MPC → Nat
  | .refd | .armed => 1
  | _ => 0

structure Inv (s : State) : Prop where
  cnt : s.counter = (s.users.countP UPC.holds : Int) + s.m.holds
  frz : s.freeze = if s.m = .idle then 0 else 1
  bug : s.bug = false
  reg : s.regs = s.fired.length + (if s.callback then 1 else 0)
  cbm : s.callback = true → s.m = .armed ∨ s.m = .zero ∨ s.m = .waiting
  live : s.callback = true → 0 < s.counter ∨ (∃ u ∈ s.users, u = .zero) ∨ s.m = .zero

theorem inv_init (n : Nat) : Inv (init n) := by
  refine ⟨?_, rfl, rfl, rfl, by simp [init], by simp [init]⟩
  simp [init, MPC.holds, UPC.holds, List.countP_replicate]

theorem mem_set_of {l : List UPC} {i : Nat} {x a y : UPC} (h : l[i]? = some x) (hy : y ∈ l)
    (hne : y ≠ x) : y ∈ l.set i a := by
  obtain ⟨j, hj⟩ := List.mem_iff_getElem?.1 hy
  have hij : i ≠ j := by
    rintro rfl; rw [h] at hj; cases hj; exact hne rfl
  apply List.mem_iff_getElem?.2
  exact ⟨j, by rw [List.getElem?_set_ne hij]; exact hj⟩

theorem mem_set_self {l : List UPC} {i : Nat} {x a : UPC} (h : l[i]? = some x) : a ∈ l.set i a := by
  have : i < l.length := (List.getElem?_eq_some_iff.1 h).1
  exact List.mem_iff_getElem?.2 ⟨i, by simp [this]⟩

/-- Steps of one user that keep the counter in line. -/
theorem inv_user (s : State) (h : Inv s) (i : Nat) (x a : UPC) (hx : s.users[i]? = some x)
    (c : Int) (hc : c = s.counter + (if a.holds then 1 else 0) - (if x.holds then 1 else 0))
    (hxz : x ≠ .zero) (hz : s.callback = true → c = 0 → 0 < s.counter → a = .zero) :
    Inv { s with counter := c, users := s.users.set i a } := by
  have hcs := countP_set UPC.holds s.users i a x hx
  have hcnt := h.cnt
  refine ⟨?_, h.frz, h.bug, h.reg, h.cbm, ?_⟩
  · simp only
    split at hc <;> split at hc <;> simp_all <;> omega
  · intro hcb
    simp only at hcb ⊢
    have hc0 : 0 ≤ c := by
      have : c = ((s.users.set i a).countP UPC.holds : Int) + s.m.holds := by
        split at hc <;> split at hc <;> simp_all <;> omega
      omega
    by_cases hpos : 0 < c
    · exact Or.inl hpos
    · have hc00 : c = 0 := by omega
      by_cases hsp : 0 < s.counter
      · right; left
        exact ⟨.zero, by rw [hz hcb hc00 hsp]; exact mem_set_self hx, rfl⟩
      · rcases h.live hcb with hl | hl | hl
        · omega
        · obtain ⟨u, hu, rfl⟩ := hl
          exact Or.inr (Or.inl ⟨.zero, mem_set_of hx hu (Ne.symm hxz), rfl⟩)
        · exact Or.inr (Or.inr hl)

theorem inv_userDec (s : State) (h : Inv s) (i : Nat) (x : UPC) (hx : s.users[i]? = some x)
    (hh : x.holds = true) : Inv (userDec s i) := by
  have hpos := countP_pos_of_get UPC.holds s.users i x hx hh
  have hcnt := h.cnt
  have hb : (s.bug || decide (s.counter - 1 < 0)) = s.bug := by
    rw [decide_eq_false (by omega)]; simp
  unfold userDec
  simp only [hb]
  refine inv_user s h i x _ hx _ ?_ (by rintro rfl; cases hh) ?_
  · rw [hh]; split <;> simp [UPC.holds] <;> omega
  · intro _ h0 _; rw [if_pos h0]

theorem inv_fire_aux (s : State) (h : Inv s) :
    (tryFire s).counter = s.counter ∧ (tryFire s).freeze = s.freeze ∧ (tryFire s).bug = false ∧
    (tryFire s).users = s.users ∧ (tryFire s).callback = false ∧ (tryFire s).m = s.m ∧
    (tryFire s).regs = s.regs ∧ (tryFire s).regs = (tryFire s).fired.length := by
  have := h.reg
  unfold tryFire
  split
  · rename_i hc; simp [hc] at this; simp [this, h.bug]
  · rename_i hc; simp [hc] at this; simp [this, h.bug, hc]

theorem inv_step (s t : State) (h : Inv s) (hst : Step s t) : Inv t := by
  cases hst with
  | check i hx _ => exact inv_user s h i _ .checked hx s.counter (by simp [UPC.holds]) (by simp) (by omega)
  | inc i hx => exact inv_user s h i _ .incd hx _ (by simp [UPC.holds]) (by simp) (by
      have := h.cnt; intros; omega)
  | enter i hx _ => exact inv_user s h i _ .inside hx s.counter (by simp [UPC.holds]) (by simp) (by omega)
  | back i hx _ => exact inv_user s h i _ .backing hx s.counter (by simp [UPC.holds]) (by simp) (by omega)
  | leave i hx => exact inv_userDec s h i _ hx rfl
  | unback i hx => exact inv_userDec s h i _ hx rfl
  | fire i hx =>
    obtain ⟨e1, e2, e3, e4, e5, e6, e7, e8⟩ := inv_fire_aux s h
    have hcs := countP_set UPC.holds s.users i .out _ hx
    simp only [UPC.holds, Bool.false_eq_true, if_false] at hcs
    have hcnt := h.cnt
    refine ⟨?_, by simpa only [e2, e6] using h.frz, e3, ?_, ?_, ?_⟩
    · simp only [e1, e6]; omega
    · simp only [e5, e8]; simp
    · simp [e5]
    · simp [e5]
  | mFreeze hm =>
    have hf := h.frz
    have hcb : s.callback = false := by
      cases hc : s.callback with
      | false => rfl
      | true => have := h.cbm hc; simp [hm] at this
    refine ⟨?_, ?_, h.bug, h.reg, by simp [hcb], by simp [hcb]⟩
    · have := h.cnt; simpa [hm, MPC.holds] using this
    · simp [hm] at hf; simp [hf]
  | mInc hm =>
    have hf := h.frz
    have hcb : s.callback = false := by
      cases hc : s.callback with
      | false => rfl
      | true => have := h.cbm hc; simp [hm] at this
    refine ⟨?_, ?_, ?_, h.reg, by simp [hcb], by simp [hcb]⟩
    · have := h.cnt; simp [hm, MPC.holds] at this ⊢; omega
    · simpa [hm] using hf
    · simp [hm] at hf; simp [h.bug, hf, hcb]
  | mArm hm =>
    have hf := h.frz
    have hcb : s.callback = false := by
      cases hc : s.callback with
      | false => rfl
      | true => have := h.cbm hc; simp [hm] at this
    have hcnt := h.cnt
    refine ⟨?_, ?_, h.bug, ?_, by simp, ?_⟩
    · simp [hm, MPC.holds] at hcnt ⊢; omega
    · simpa [hm] using hf
    · have := h.reg; simp [hcb] at this; simp [this]
    · intro _; left; simp [hm, MPC.holds] at hcnt ⊢; omega
  | mDec hm =>
    have hf := h.frz
    have hcnt := h.cnt
    simp only [hm, MPC.holds] at hcnt
    have hb : (s.bug || decide (s.counter - 1 < 0)) = false := by
      rw [decide_eq_false (by omega), h.bug]; rfl
    refine ⟨?_, ?_, hb, h.reg, ?_, ?_⟩
    · split <;> simp [MPC.holds] <;> omega
    · simp [hm] at hf; split <;> simp [hf]
    · intro _; split <;> simp
    · intro hc
      simp only at hc ⊢
      by_cases h0 : s.counter - 1 = 0
      · simp [h0]
      · left; omega
  | mFire hm =>
    obtain ⟨e1, e2, e3, e4, e5, e6, e7, e8⟩ := inv_fire_aux s h
    have hcnt := h.cnt
    have hf := h.frz
    simp only [hm, MPC.holds] at hcnt
    refine ⟨?_, ?_, e3, ?_, ?_, ?_⟩
    · simp only [e1, e4, MPC.holds]; omega
    · simp [hm] at hf; simp [e2, hf]
    · simp only [e5, e8]; simp
    · simp [e5]
    · simp [e5]
  | mUnfreeze hm hl =>
    have hf := h.frz
    simp [hm] at hf
    have hcb : s.callback = false := by
      have := h.reg
      cases hc : s.callback with
      | false => rfl
      | true => simp [hc] at this; omega
    have hcnt := h.cnt
    refine ⟨?_, ?_, ?_, h.reg, by simp [hcb], by simp [hcb]⟩
    · simpa [hm, MPC.holds] using hcnt
    · simp [hf]
    · simp [h.bug, hf]

theorem inv_reach (n : Nat) (s : State) (h : Reach (· = init n) Step s) : Inv s :=
  Reach.inv (P := Inv) (init := (· = init n)) (by rintro _ rfl; exact inv_init n) inv_step s h

/-- No assertion of the counter code fails. -/
theorem no_bug (n : Nat) (s : State) (h : Reach (· = init n) Step s) : s.bug = false :=
  (inv_reach n s h).bug

/-- C10 (at most once): callbacks run at most once per registration. -/
theorem callback_at_most_once (n : Nat) (s : State) (h : Reach (· = init n) Step s) :
    s.fired.length ≤ s.regs := by
  have := (inv_reach n s h).reg; omega

/-- C10 (it does run): when every user is out and the quiescer has finished registering, the
callback has run. -/
theorem callback_runs (n : Nat) (s : State) (h : Reach (· = init n) Step s)
    (hu : ∀ u ∈ s.users, u = .out ∨ u = .checked) (hm : s.m = .waiting) :
    s.fired.length = s.regs := by
  have hi := inv_reach n s h
  have hr := hi.reg
  cases hc : s.callback with
  | false => simp [hc] at hr; omega
  | true =>
    exfalso
    have hcz : s.users.countP UPC.holds = 0 := by
      rw [List.countP_eq_zero]
      intro u hu'
      rcases hu u hu' with rfl | rfl <;> simp [UPC.holds]
    have hcnt := hi.cnt
    simp [hcz, hm, MPC.holds] at hcnt
    rcases hi.live hc with hl | hl | hl
    · omega
    · obtain ⟨u, hu', rfl⟩ := hl
      rcases hu _ hu' with h | h <;> cases h
    · rw [hm] at hl; cases hl

/-- C10 (nobody gets in): while frozen, no step takes a user inside. -/
theorem no_entry_when_frozen (n : Nat) (s t : State) (h : Reach (· = init n) Step s)
    (hf : s.freeze ≠ 0) (hst : Step s t) (i : Nat) (hi : t.users[i]? = some .inside) :
    s.users[i]? = some .inside := by
  have key : ∀ (j : Nat) (x a : UPC), s.users[j]? = some x → a ≠ .inside →
      (s.users.set j a)[i]? = some .inside → s.users[i]? = some .inside := by
    intro j x a hx ha hs
    by_cases hij : j = i
    · subst hij
      have : j < s.users.length := (List.getElem?_eq_some_iff.1 hx).1
      simp [this] at hs; exact absurd hs ha
    · rwa [List.getElem?_set_ne hij] at hs
  have hfire : (tryFire s).users = s.users := (inv_fire_aux s (inv_reach n s h)).2.2.2.1
  cases hst with
  | check j hx _ => exact key j _ _ hx (by simp) hi
  | inc j hx => exact key j _ _ hx (by simp) hi
  | enter j hx h0 => exact absurd h0 hf
  | back j hx _ => exact key j _ _ hx (by simp) hi
  | leave j hx =>
    refine key j _ _ hx ?_ hi
    split <;> simp
  | unback j hx =>
    refine key j _ _ hx ?_ hi
    split <;> simp
  | fire j hx => exact key j _ _ hx (by simp) hi
  | mFreeze _ => exact hi
  | mInc _ => exact hi
  | mArm _ => exact hi
  | mDec _ => exact hi
  | mFire _ => simp only [hfire] at hi; exact hi
  | mUnfreeze _ _ => exact hi

/-- C10 fails for the code as it is: with two users, the callback can run while one of them is
inside. User 0 leaves (decrements to zero) and is delayed before testing the callback flag; user 1
enters; then the quiescer freezes and registers; then user 0 continues. -/
theorem fires_with_user_inside :
    ∃ s, Reach (· = init 2) Step s ∧ s.fired = [1] := by
  let r0 : Reach (· = init 2) Step (init 2) := .init rfl
  have r1 := r0.step (.check _ 0 rfl rfl)
  have r2 := r1.step (.inc _ 0 rfl)
  have r3 := r2.step (.enter _ 0 rfl rfl)
  have r4 := r3.step (.leave _ 0 rfl)
  have r5 := r4.step (.check _ 1 rfl rfl)
  have r6 := r5.step (.inc _ 1 rfl)
  have r7 := r6.step (.enter _ 1 rfl rfl)
  have r8 := r7.step (.mFreeze _ rfl)
  have r9 := r8.step (.mInc _ rfl)
  have r10 := r9.step (.mArm _ rfl)
  have r11 := r10.step (.mDec _ rfl)
  have r12 := r11.step (.fire _ 0 rfl)
  exact ⟨_, r12, rfl⟩

/-- Additional invariant of calm executions: while armed, a thread about to fire implies nobody is
inside. -/
structure CalmInv (s : State) : Prop where
  zero : s.callback = true → ((∃ u ∈ s.users, u = .zero) ∨ s.m = .zero) → inside s = 0
  past : ∀ k ∈ s.fired, k = 0

theorem inside_le (s : State) : inside s ≤ s.users.countP UPC.holds := by
  unfold inside
  apply List.countP_mono_left
  intro x _ hx; simp at hx; subst hx; rfl

theorem inside_set (l : List UPC) (i : Nat) (a x : UPC) (h : l[i]? = some x) (ha : a ≠ .inside) :
    (l.set i a).countP (· == .inside) ≤ l.countP (· == .inside) := by
  have := countP_set (· == UPC.inside) l i a x h
  have h2 : ((a == UPC.inside) = true) = False := by simp [ha]
  simp only [h2, if_false] at this
  omega

theorem zero_of_set {l : List UPC} {i : Nat} {a : UPC} (ha : a ≠ .zero)
    (h : ∃ u ∈ l.set i a, u = UPC.zero) : ∃ u ∈ l, u = UPC.zero := by
  obtain ⟨u, hu, rfl⟩ := h
  rcases List.mem_or_eq_of_mem_set hu with h | h
  · exact ⟨_, h, rfl⟩
  · exact absurd h.symm ha

/-- User steps that do not enter and do not reach `zero`. -/
theorem calm_user (s : State) (hc : CalmInv s) (i : Nat) (x a : UPC) (hx : s.users[i]? = some x)
    (ha : a ≠ .inside) (hz : a ≠ .zero) (c : Int) (b : Bool) :
    CalmInv { s with counter := c, bug := b, users := s.users.set i a } := by
  refine ⟨?_, hc.past⟩
  intro hcb hor
  have h0 := hc.zero hcb (by
    rcases hor with h | h
    · exact Or.inl (zero_of_set hz h)
    · exact Or.inr h)
  have := inside_set s.users i a x hx ha
  unfold inside at h0 ⊢
  simp only; omega

theorem calm_userDec (s : State) (hi : Inv s) (hc : CalmInv s) (i : Nat) (x : UPC)
    (hx : s.users[i]? = some x) (hh : x.holds = true) : CalmInv (userDec s i) := by
  unfold userDec
  by_cases hz : s.counter - 1 = 0
  · simp only [hz, if_true]
    refine ⟨?_, hc.past⟩
    intro _ _
    have hcs := countP_set UPC.holds s.users i .zero x hx
    rw [hh, if_pos rfl, if_neg (by simp [UPC.holds])] at hcs
    have := hi.cnt
    have hle := inside_le { s with users := s.users.set i .zero }
    have hins : inside { s with counter := (0 : Int), bug := s.bug || decide ((0 : Int) < 0), users := s.users.set i .zero }
      = inside { s with users := s.users.set i .zero } := rfl
    rw [hins]
    simp only at hle
    omega
  · simp only [hz, if_false]
    exact calm_user s hc i x .out hx (by simp) (by simp) _ _

theorem calm_fire (s : State) (hc : CalmInv s)
    (hz : (∃ u ∈ s.users, u = .zero) ∨ s.m = .zero) :
    (tryFire s).callback = false ∧ ∀ k ∈ (tryFire s).fired, k = 0 := by
  unfold tryFire
  split
  · rename_i hcb
    refine ⟨rfl, ?_⟩
    intro k hk
    rcases List.mem_append.1 hk with hk | hk
    · exact hc.past k hk
    · simp at hk; rw [hk]; exact hc.zero hcb hz
  · rename_i hcb
    exact ⟨by simpa using hcb, hc.past⟩

theorem calm_step (s t : State) (hi : Inv s) (hc : CalmInv s) (hst : CalmStep s t) : CalmInv t := by
  obtain ⟨hst, hcalm⟩ := hst
  have hfz : s.callback = true → s.freeze ≠ 0 := by
    intro hcb
    have := hi.frz
    rcases hi.cbm hcb with h | h | h <;> simp [h] at this <;> omega
  cases hst with
  | check i hx hf => exact calm_user s hc i _ .checked hx (by simp) (by simp) _ _
  | inc i hx => exact calm_user s hc i _ .incd hx (by simp) (by simp) _ _
  | enter i hx hf =>
    refine ⟨fun hcb _ => absurd hf (hfz hcb), hc.past⟩
  | back i hx _ => exact calm_user s hc i _ .backing hx (by simp) (by simp) _ _
  | leave i hx => exact calm_userDec s hi hc i _ hx rfl
  | unback i hx => exact calm_userDec s hi hc i _ hx rfl
  | fire i hx =>
    obtain ⟨h1, h2⟩ := calm_fire s hc (Or.inl ⟨.zero, List.mem_of_getElem? hx, rfl⟩)
    exact ⟨fun hcb => absurd hcb (by simp [h1]), h2⟩
  | mFreeze hm => exact ⟨fun hcb hor => hc.zero hcb (by simpa [hm] using hor), hc.past⟩
  | mInc hm => exact ⟨fun hcb hor => hc.zero hcb (by simpa [hm] using hor), hc.past⟩
  | mArm hm =>
    refine ⟨?_, hc.past⟩
    intro _ hor
    rcases hor with ⟨u, hu, rfl⟩ | h
    · exact absurd rfl (hcalm hm rfl _ hu)
    · simp at h
  | mDec hm =>
    refine ⟨?_, hc.past⟩
    intro hcb hor
    by_cases h0 : s.counter - 1 = 0
    · have hcnt := hi.cnt
      simp only [hm, MPC.holds] at hcnt
      have := inside_le s
      unfold inside at this ⊢
      simp only; omega
    · exact hc.zero hcb (by simpa [hm, h0] using hor)
  | mFire hm =>
    obtain ⟨h1, h2⟩ := calm_fire s hc (Or.inr hm)
    exact ⟨fun hcb => absurd hcb (by simp [h1]), h2⟩
  | mUnfreeze hm _ => exact ⟨fun hcb hor => hc.zero hcb (by simpa [hm] using hor), hc.past⟩

/-- C10, provable part of "only when nobody is inside": holds in every execution in which the
callback is armed while no user is between its decrement to zero and its test of the callback
flag. Missing for the full claim: exactly that window (`fires_with_user_inside`). -/
theorem fires_when_empty_partial (n : Nat) (s : State) (h : Reach (· = init n) CalmStep s) :
    ∀ k ∈ s.fired, k = 0 := by
  have : Inv s ∧ CalmInv s := by
    refine Reach.inv (P := fun s => Inv s ∧ CalmInv s) (init := (· = init n)) ?_ ?_ s h
    · rintro _ rfl
      exact ⟨inv_init n, by simp [init], by simp [init]⟩
    · rintro s t ⟨h1, h2⟩ hst
      exact ⟨inv_step s t h1 hst.1, calm_step s t h1 h2 hst⟩
  exact this.2.past

/-! Non-vacuity: a calm run in which a user is inside at registration time and its leaving runs
the callback. -/
example : ∃ s, Reach (· = init 1) CalmStep s ∧ s.fired = [0] := by
  let r0 : Reach (· = init 1) CalmStep (init 1) := .init rfl
  have r1 := r0.step ⟨.check _ 0 rfl rfl, by simp [init]⟩
  have r2 := r1.step ⟨.inc _ 0 rfl, by simp [init]⟩
  have r3 := r2.step ⟨.enter _ 0 rfl rfl, by simp [init]⟩
  have r4 := r3.step ⟨.mFreeze _ rfl, by simp [init]⟩
  have r5 := r4.step ⟨.mInc _ rfl, by simp [init]⟩
  have r6 := r5.step ⟨.mArm _ rfl, by simp [init]⟩
  have r7 := r6.step ⟨.mDec _ rfl, by simp⟩
  have r8 := r7.step ⟨.leave _ 0 rfl, by simp [init]⟩
  have r9 := r8.step ⟨.fire _ 0 rfl, by simp [init, userDec]⟩
  exact ⟨_, r9, rfl⟩

end Verif.Refcnt
