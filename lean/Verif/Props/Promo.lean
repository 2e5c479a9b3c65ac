import Verif.Lemma.Promo

/-! Properties of the promotion policy of a cache (C60). -/

namespace Verif.Promo

/-! ## Specification -/

/-- The calls that the library does not survive: setting the policy of a detached cache, parameters of a type that
does not exist. -/
def Fatal (s : St) : Op → Prop
  | .setPolicy _ _ => s.attached = false
  | .setParam t _ _ => t ≥ 2 ∧ s.attached = true ∧ s.standby = false
  | .getParam t _ => t ≥ 2 ∧ s.standby = false
  | _ => False

/-- Sums of what is held. -/
def Held.all (h : Held) : Nat := h.pol + h.ctx + h.hash + h.map + h.locks + h.sem + h.ring + h.spin

/-- The inputs of a call let every spinlock be initialised. -/
def SpinOk : Op → Prop
  | .attach _ _ i _ => i.hash.spin = true
  | .load _ _ _ _ _ i _ => i.hash.spin = true
  | .activate _ _ _ _ _ i _ => i.hash.spin = true
  | .setPolicy _ i => i.hash.spin = true
  | _ => True

/-- Parameters within their limits. -/
def Valid (ins trg : Nat) : Prop := 2 ≤ ins ∧ ins ≤ 1000 ∧ trg ≤ 100

/-- Parameters that come from superblocks are within their limits. -/
def DiskOk : Op → Prop
  | .load _ _ a b _ _ _ => Valid a b
  | .activate _ _ a b _ _ _ => Valid a b
  | .standbyOn _ a b => Valid a b
  | _ => True

/-! ## Requests -/

/-- A request of an attached, active cache always finds a policy it can use: with 'always' it asks nothing, with
'nhit' it uses the two parameters as they are set at that moment. -/
theorem request_ok {s : St} (h : Reach Init Step s) (ha : s.attached = true) (hs : s.standby = false) :
    (s.type = always ∧ request s = some none) ∨ (s.type = nhit ∧ request s = some (some (s.ins, s.trg))) := by
  have hi := inv_reach h
  obtain ⟨p, hp, f1, f2, f3⟩ := hi.some_of ha hs
  have ht := hi.typ
  unfold request
  rw [hp]
  simp only
  by_cases hn : s.type = nhit
  · obtain ⟨g1, g2⟩ := f2 hn
    rw [if_neg (by omega), if_pos (by omega)]
    refine Or.inr ⟨hn, ?_⟩
    cases ht : p.tab with
    | none => rw [ht] at g2; cases g2
    | some n => simp [g1]
  · rw [if_neg (by omega), if_neg (by omega)]
    exact Or.inl ⟨by simp only [types, nhit, always] at *; omega, rfl⟩

/-- The type reported is that of the policy in use, and the policy has a table exactly for 'nhit'. -/
theorem type_true {s : St} (h : Reach Init Step s) :
    s.type < 2 ∧ (s.standby = false → getPolicy s = (.ok, some s.type)) ∧
    ∀ p, s.pol = some p → p.type = s.type ∧ (p.tab.isSome = true ↔ s.type = nhit) := by
  have hi := inv_reach h
  refine ⟨hi.typ, fun hs => by simp [getPolicy, hs], fun p hp => ?_⟩
  have hf := hi.fit
  rw [hp] at hf
  refine ⟨hf.1, fun e => ?_, fun e => (hf.2.1 e).2⟩
  refine Classical.byContradiction fun hn => ?_
  have h0 : s.type = always := by have := hi.typ; simp only [types, nhit, always] at *; omega
  rw [hf.2.2 h0] at e
  cases e

/-! ## What is held -/

/-- A cache without a device, or in standby, has no policy and holds nothing but the ring buffers lost; an active
one has one policy structure, and for 'nhit' one table with all its parts. -/
theorem held_exact {s : St} (h : Reach Init Step s) :
    ((s.attached = false ∨ s.standby = true) → s.pol = none ∧ s.held.all = s.leaks ∧ s.held.ring = s.leaks) ∧
    (s.attached = true → s.standby = false → s.type = always → s.held.pol = 1 ∧ s.held.all = 1 + s.leaks) ∧
    (s.attached = true → s.standby = false → s.type = nhit → ∃ n, s.held = ⟨1, 1, 1, 1, 1, n, s.leaks + 1, 1⟩) := by
  have hi := inv_reach h
  have ha := hi.acc
  refine ⟨fun hd => ?_, fun h1 h2 h3 => ?_, fun h1 h2 h3 => ?_⟩
  · have hp := hi.none_of hd
    rw [hp] at ha
    refine ⟨hp, ?_, ?_⟩ <;> simp [ha, holds, Held.all]
  · obtain ⟨⟨pt, pc, ptab⟩, hp, f1, f2, f3⟩ := hi.some_of h1 h2
    rw [hp] at ha
    have := f3 h3
    simp only at this
    subst this
    simp [ha, holds, Held.all]
  · obtain ⟨⟨pt, pc, ptab⟩, hp, f1, f2, f3⟩ := hi.some_of h1 h2
    rw [hp] at ha
    obtain ⟨_, g2⟩ := f2 h3
    cases ptab with
    | none => cases g2
    | some n => exact ⟨n, by simp [ha, holds]⟩

theorem nhitSet_leaks (s : St) (id v : Nat) : (nhitSet s id v).1.leaks = s.leaks := by
  unfold nhitSet
  split
  · split <;> rfl
  · split
    · split <;> rfl
    · rfl

/-- Ring buffers are lost only when a spinlock cannot be initialised. -/
theorem leak_spin {s : St} (h : Reach Init Step s) (o : Op) (ho : SpinOk o) : (step s o).1.leaks = s.leaks := by
  have hi := inv_reach h
  have hl : ∀ n t a b m (i : NhitIn) ok, s.pol = none → i.hash.spin = true → (load s n t a b m i ok).1.leaks = s.leaks := by
    intro n t a b m i ok hp hsp
    unfold load superblock
    by_cases ht : t ≥ types
    · rw [if_pos ht]
    · rw [if_neg ht]
      simp only
      have ha := hi.acc
      rw [hp] at ha
      rcases promInit_spec (s := { s with type := t, ins := a, trg := b, lines := n }) (m := m) (i := i)
        (by simp only; omega) hp ha with ⟨h1, p, h2, h3⟩ | ⟨h1, l, h2, h4⟩
      · rw [if_neg (by simp [h1])]
        cases ok
        · simp only [Bool.false_eq_true, if_false, h3]
          rw [promDeinit_spec (by simp only; omega) (by exact h2) (by rfl)]
        · simp only [if_true, h3]
      · rw [if_pos h1, h2, h4 hsp]; rfl
  cases o with
  | attach n m i l =>
    simp only [step]
    split
    · rfl
    · rename_i hc
      simp only [Bool.or_eq_true, not_or, Bool.not_eq_true] at hc
      have hp := hi.none_of (Or.inl hc.1)
      have ha := hi.acc
      rw [hp] at ha
      unfold attach
      rcases promInit_spec (s := { s with lines := n }) (m := m) (i := i) hi.typ hp ha with ⟨h1, p, h2, h3⟩ | ⟨h1, l, h2, h4⟩
      · simp only
        rw [if_neg (by simp [h1])]
        cases l
        · simp only [h3]; rfl
        · simp only [h3]
          rw [promDeinit_spec (by exact hi.typ) (by exact h2) (by rfl)]
        · simp only [h3]
          rw [promDeinit_spec (by exact hi.typ) (by exact h2) (by rfl)]
          rfl
      · simp only
        rw [if_pos h1, h2, h4 ho]; rfl
  | load n t a b m i ok =>
    simp only [step]
    split
    · rfl
    · rename_i hc
      simp only [Bool.or_eq_true, not_or, Bool.not_eq_true] at hc
      exact hl n t a b m i ok (hi.none_of (Or.inl hc.1)) ho
  | activate n t a b m i ok =>
    simp only [step]
    split
    · rfl
    · rename_i hc
      simp only [Bool.not_eq_true', Bool.not_eq_false] at hc
      exact hl n t a b m i ok (hi.none_of (Or.inr hc)) ho
  | standbyOn t a b =>
    simp only [step]
    split
    · rfl
    · unfold superblock
      by_cases ht : t ≥ types
      · rw [if_pos ht]
      · rw [if_neg ht]
  | standbyOff => simp only [step]; split <;> rfl
  | unplug =>
    simp only [step]
    split
    · rfl
    · rw [promDeinit_spec hi.typ hi.fit hi.acc]
  | setPolicy t i =>
    simp only [step, setPolicy]
    split
    · rfl
    · cases hp : s.pol with
      | none => rfl
      | some p =>
        simp only
        split
        · rfl
        · split
          · rfl
          · rename_i h1 h2
            have hf := hi.fit
            have ha := hi.acc
            rw [hp] at hf ha
            rcases switch_spec (i := i) hi.typ hp hf ha (by omega) h2 with ⟨_, q, _, h3⟩ | ⟨_, _, q, l, _, h3, h4⟩
            · rw [h3]
            · rw [h3, h4 ho]; rfl
  | setParam t id v =>
    simp only [step, setParam]
    split
    · rfl
    · split
      · rfl
      · split
        · rfl
        · split
          · exact nhitSet_leaks s id v
          · rfl
  | getParam t id => simp only [step]; split <;> rfl

/-! ## Switching -/

theorem nhitInit_res (s : St) (p : Pol) (i : NhitIn) :
    (nhitInit s p i).2 = .ok ∨ (nhitInit s p i).2 = .noMem ∨ (nhitInit s p i).2 = .noRam := by
  unfold nhitInit
  split
  · exact Or.inr (Or.inr rfl)
  · split
    · exact Or.inr (Or.inl rfl)
    · simp only
      split
      · exact Or.inr (Or.inl rfl)
      · exact Or.inl rfl

theorem switch_res (s : St) (p : Pol) (i : NhitIn) :
    (switch s p nhit i).2 = .ok ∨ (switch s p nhit i).2 = .noMem ∨ (switch s p nhit i).2 = .noRam := by
  unfold switch
  simp only [if_true]
  split <;> split <;> exact nhitInit_res _ _ _

/-- Setting the policy of an active cache. A type that does not exist is refused without effect; success sets the
type; failure means that 'nhit' could not be initialised, and the policy is then 'always'. The parameters stay. -/
theorem setPolicy_active {s : St} (h : Reach Init Step s) (ha : s.attached = true) (hs : s.standby = false)
    (t : Nat) (i : NhitIn) :
    let r := setPolicy s t i
    (t ≥ 2 → r = (s, .inval)) ∧
    (t < 2 → (r.2 = .ok ∧ r.1.type = t) ∨ (t = nhit ∧ (r.2 = .noMem ∨ r.2 = .noRam) ∧ r.1.type = always)) ∧
    (t = s.type → r = (s, .ok)) ∧
    r.1.ins = s.ins ∧ r.1.trg = s.trg ∧ r.1.bad = s.bad ∧ r.1.attached = true ∧ r.1.standby = false := by
  have hi := inv_reach h
  obtain ⟨p, hp, hf⟩ := hi.some_of ha hs
  have hacc := hi.acc
  rw [hp] at hacc
  have hty := hi.typ
  simp only [types] at hty
  intro r
  have hr : r = if t ≥ types then (s, .inval) else if t = s.type then (s, .ok) else switch s p t i := by
    show setPolicy s t i = _
    unfold setPolicy
    rw [hs, hp]
    rfl
  by_cases ht : t ≥ 2
  · rw [if_pos (show t ≥ types from ht)] at hr
    rw [hr]
    exact ⟨fun _ => rfl, fun e => absurd e (by omega), fun e => absurd e (by omega), rfl, rfl, rfl, ha, hs⟩
  · rw [if_neg (show ¬ t ≥ types from ht)] at hr
    by_cases he : t = s.type
    · rw [if_pos he] at hr
      rw [hr]
      exact ⟨fun e => absurd e ht, fun _ => Or.inl ⟨rfl, he.symm⟩, fun _ => rfl, rfl, rfl, rfl, ha, hs⟩
    · rw [if_neg he] at hr
      rw [hr]
      rcases switch_spec (i := i) hi.typ hp hf hacc (by simp only [types]; omega) he with
        ⟨h1, q, h2, h3⟩ | ⟨h1, h4, q, l, h2, h3, _⟩
      · rw [h3]
        exact ⟨fun e => absurd e ht, fun _ => Or.inl ⟨h1, rfl⟩, fun e => absurd e he, rfl, rfl, rfl, ha, hs⟩
      · rw [h3]
        refine ⟨fun e => absurd e ht, fun _ => Or.inr ⟨h4, ?_, rfl⟩, fun e => absurd e he, rfl, rfl, rfl, ha, hs⟩
        subst h4
        exact (switch_res s p i).resolve_left h1

/-! ## Parameters -/

/-- Setting a parameter succeeds exactly on an active cache, for 'nhit', with a value in the limits; it changes
that parameter and nothing else; otherwise nothing changes. -/
theorem setParam_spec (s : St) (t id v : Nat) (hb : s.bad = false) (ht : t < 2) :
    (((setParam s t id v).2 = .ok ↔ s.standby = false ∧ s.attached = true ∧ t = nhit ∧
        ((id = 0 ∧ 2 ≤ v ∧ v ≤ 1000) ∨ (id = 1 ∧ v ≤ 100))) ∧
    (setParam s t id v).1.bad = false) ∧
    (setParam s t id v).1 =
      if (setParam s t id v).2 = .ok then (if id = 0 then { s with ins := v } else { s with trg := v }) else s := by
  have h2 : ¬ t ≥ types := by simp only [types]; omega
  unfold setParam nhitSet
  cases hs : s.standby
  · cases ha : s.attached
    · simp [hb]
    · simp only [Bool.false_eq_true, if_false, Bool.not_true]
      rw [if_neg h2]
      by_cases hn : t = nhit
      · rw [if_pos hn]
        by_cases h0 : id = 0
        · subst h0
          simp only [if_true]
          by_cases hv : v ≥ 2 ∧ v ≤ 1000
          · rw [if_pos hv]
            simp [hb, hn, hv]
          · rw [if_neg hv]
            simp [hb, hn]
            omega
        · rw [if_neg h0]
          by_cases h1 : id = 1
          · subst h1
            simp only [if_true]
            by_cases hv : v ≤ 100
            · rw [if_pos hv]
              simp [hb, hn, hv]
            · rw [if_neg hv]
              simp [hb, hn, hv]
          · rw [if_neg h1]
            simp [hb, h0, h1]
      · rw [if_neg hn]
        simp [hb, hn]
  · simp [hb]

/-- A parameter that was set is what is read, the other is unchanged. -/
theorem get_after_set (s : St) (id v : Nat) (h : (setParam s nhit id v).2 = .ok) :
    getParam (setParam s nhit id v).1 nhit id = (.ok, some v) ∧
    ∀ j, j ≠ id → getParam (setParam s nhit id v).1 nhit j = getParam s nhit j := by
  unfold setParam at *
  cases hs : s.standby
  · cases ha : s.attached
    · simp [hs, ha] at h
    · simp only [hs, ha, Bool.false_eq_true, if_false, Bool.not_true] at h ⊢
      rw [if_neg (by decide), if_pos trivial] at h ⊢
      unfold nhitSet at *
      by_cases h0 : id = 0
      · subst h0
        simp only [if_true] at h ⊢
        by_cases hv : v ≥ 2 ∧ v ≤ 1000
        · rw [if_pos hv]
          refine ⟨by simp [getParam, hs], fun j hj => ?_⟩
          simp [getParam, hs, hj]
        · rw [if_neg hv] at h; cases h
      · rw [if_neg h0] at h ⊢
        by_cases h1 : id = 1
        · subst h1
          simp only [if_true] at h ⊢
          by_cases hv : v ≤ 100
          · rw [if_pos hv]
            refine ⟨by simp [getParam, hs], fun j hj => ?_⟩
            simp [getParam, hs, hj]
          · rw [if_neg hv] at h; cases h
        · rw [if_neg h1] at h; cases h
  · simp [hs] at h

theorem promInit_params {s : St} (m : Bool) (i : NhitIn) :
    (promInit s m i).1.ins = s.ins ∧ (promInit s m i).1.trg = s.trg ∧ (promInit s m i).1.type = s.type := by
  unfold promInit
  split
  · exact ⟨rfl, rfl, rfl⟩
  · split
    · exact ⟨rfl, rfl, rfl⟩
    · simp only
      split
      · unfold nhitInit
        split
        · simp
        · split
          · simp
          · simp only
            split <;> simp
      · exact ⟨rfl, rfl, rfl⟩

theorem promDeinit_params (s : St) :
    (promDeinit s).ins = s.ins ∧ (promDeinit s).trg = s.trg ∧ (promDeinit s).type = s.type := by
  unfold promDeinit
  cases s.pol with
  | none => exact ⟨rfl, rfl, rfl⟩
  | some p =>
    simp only
    split
    · unfold nhitDeinit
      split <;> exact ⟨rfl, rfl, rfl⟩
    · exact ⟨rfl, rfl, rfl⟩

/-- Parameters within the limits stay within them, as long as superblocks hold such. -/
theorem params_valid {s : St} (h : Reach Init Step s) (o : Op) (hd : DiskOk o) (hv : Valid s.ins s.trg) :
    Valid (step s o).1.ins (step s o).1.trg := by
  have hl : ∀ n t a b m (i : NhitIn) ok, Valid a b →
      Valid (load s n t a b m i ok).1.ins (load s n t a b m i ok).1.trg := by
    intro n t a b m i ok hab
    unfold load superblock
    by_cases ht : t ≥ types
    · rw [if_pos ht]; exact hv
    · rw [if_neg ht]
      simp only
      have hq := promInit_params (s := { s with type := t, ins := a, trg := b, lines := n }) m i
      split
      · rw [hq.1, hq.2.1]; exact hab
      · split
        · simp only; rw [hq.1, hq.2.1]; exact hab
        · simp only
          rw [(promDeinit_params _).1, (promDeinit_params _).2.1, hq.1, hq.2.1]; exact hab
  cases o with
  | attach n m i l =>
    simp only [step]
    split
    · exact hv
    · unfold attach
      simp only
      have hq := promInit_params (s := { s with lines := n }) m i
      split
      · rw [hq.1, hq.2.1]; exact hv
      · cases l
        · simp only [setup]; exact ⟨by omega, by omega, by omega⟩
        · simp only
          rw [(promDeinit_params _).1, (promDeinit_params _).2.1, hq.1, hq.2.1]; exact hv
        · simp only
          rw [(promDeinit_params _).1, (promDeinit_params _).2.1]; exact ⟨by simp [setup], by simp [setup], by simp [setup]⟩
  | load n t a b m i ok =>
    simp only [step]
    split
    · exact hv
    · exact hl n t a b m i ok hd
  | activate n t a b m i ok =>
    simp only [step]
    split
    · exact hv
    · exact hl n t a b m i ok hd
  | standbyOn t a b =>
    simp only [step]
    split
    · exact hv
    · unfold superblock
      by_cases ht : t ≥ types
      · rw [if_pos ht]; exact hv
      · rw [if_neg ht]; exact hd
  | standbyOff => simp only [step]; split <;> exact hv
  | unplug =>
    simp only [step]
    split
    · exact hv
    · simp only
      rw [(promDeinit_params _).1, (promDeinit_params _).2.1]; exact hv
  | setPolicy t i =>
    simp only [step]
    cases hs : s.standby
    · cases ha : s.attached
      · have hp := (inv_reach h).none_of (Or.inl ha)
        unfold setPolicy
        rw [hs, hp]
        exact hv
      · have := setPolicy_active h ha hs t i
        simp only at this
        rw [this.2.2.2.1, this.2.2.2.2.1]; exact hv
    · unfold setPolicy
      rw [hs]
      exact hv
  | setParam t id v =>
    simp only [step, setParam]
    split
    · exact hv
    · split
      · exact hv
      · split
        · exact hv
        · split
          · unfold nhitSet
            obtain ⟨v1, v2, v3⟩ := hv
            split
            · split
              · rename_i hx; exact ⟨hx.1, hx.2, v3⟩
              · exact ⟨v1, v2, v3⟩
            · split
              · split
                · rename_i hx; exact ⟨v1, v2, hx⟩
                · exact ⟨v1, v2, v3⟩
              · exact ⟨v1, v2, v3⟩
          · exact hv
  | getParam t id => simp only [step]; split <;> exact hv

/-- Attaching a device keeps the type and sets the parameters to their defaults, whatever was set before. -/
theorem attach_defaults {s : St} (n : Nat) (m : Bool) (i : NhitIn) (l : Later)
    (hok : (attach s n m i l).2 = .ok) :
    (attach s n m i l).1.type = s.type ∧ (attach s n m i l).1.ins = 3 ∧ (attach s n m i l).1.trg = 80 ∧
    (attach s n m i l).1.attached = true := by
  have hq := promInit_params (s := { s with lines := n }) m i
  unfold attach at *
  simp only at *
  by_cases hr : (promInit { s with lines := n } m i).2 ≠ .ok
  · rw [if_pos hr] at hok; exact absurd hok hr
  · rw [if_neg hr] at hok ⊢
    cases l
    · exact ⟨hq.2.2, rfl, rfl, rfl⟩
    · cases hok
    · cases hok

/-! ## Calls that end the program -/

/-- Every other call, on any reachable cache, uses no NULL pointer and fails no assertion. -/
theorem safe_partial {s : St} (h : Reach Init Step s) (hb : s.bad = false) (o : Op) (ho : ¬ Fatal s o) :
    (step s o).1.bad = false := by
  have hi := inv_reach h
  have hl : ∀ n t a b m (i : NhitIn) ok, s.pol = none → (load s n t a b m i ok).1.bad = false := by
    intro n t a b m i ok hp
    unfold load superblock
    by_cases ht : t ≥ types
    · rw [if_pos ht]; exact hb
    · rw [if_neg ht]
      simp only
      have ha := hi.acc
      rw [hp] at ha
      rcases promInit_spec (s := { s with type := t, ins := a, trg := b, lines := n }) (m := m) (i := i)
        (by simp only; omega) hp ha with ⟨h1, p, h2, h3⟩ | ⟨h1, l, h2, h4⟩
      · rw [if_neg (by simp [h1])]
        cases ok
        · simp only [Bool.false_eq_true, if_false, h3]
          rw [promDeinit_spec (by simp only; omega) (by exact h2) (by rfl)]
          exact hb
        · simp only [if_true, h3]; exact hb
      · rw [if_pos h1, h2]; exact hb
  cases o with
  | attach n m i l =>
    simp only [step]
    split
    · exact hb
    · rename_i hc
      simp only [Bool.or_eq_true, not_or, Bool.not_eq_true] at hc
      have hp := hi.none_of (Or.inl hc.1)
      have ha := hi.acc
      rw [hp] at ha
      unfold attach
      rcases promInit_spec (s := { s with lines := n }) (m := m) (i := i) hi.typ hp ha with ⟨h1, p, h2, h3⟩ | ⟨h1, l, h2, h4⟩
      · simp only
        rw [if_neg (by simp [h1])]
        cases l
        · simp only [h3]; exact hb
        · simp only [h3]
          rw [promDeinit_spec (by exact hi.typ) (by exact h2) (by rfl)]
          exact hb
        · simp only [h3]
          rw [promDeinit_spec (by exact hi.typ) (by exact h2) (by rfl)]
          exact hb
      · simp only
        rw [if_pos h1, h2]; exact hb
  | load n t a b m i ok =>
    simp only [step]
    split
    · exact hb
    · rename_i hc
      simp only [Bool.or_eq_true, not_or, Bool.not_eq_true] at hc
      exact hl n t a b m i ok (hi.none_of (Or.inl hc.1))
  | activate n t a b m i ok =>
    simp only [step]
    split
    · exact hb
    · rename_i hc
      simp only [Bool.not_eq_true', Bool.not_eq_false] at hc
      exact hl n t a b m i ok (hi.none_of (Or.inr hc))
  | standbyOn t a b =>
    simp only [step]
    split
    · exact hb
    · unfold superblock
      by_cases ht : t ≥ types
      · rw [if_pos ht]; exact hb
      · rw [if_neg ht]; exact hb
  | standbyOff => simp only [step]; split <;> exact hb
  | unplug =>
    simp only [step]
    split
    · exact hb
    · rw [promDeinit_spec hi.typ hi.fit hi.acc]; exact hb
  | setPolicy t i =>
    simp only [step]
    have ha : s.attached = true := by simpa [Fatal] using ho
    cases hs : s.standby
    · have := setPolicy_active h ha hs t i
      simp only at this
      rw [this.2.2.2.2.2.1]; exact hb
    · unfold setPolicy
      rw [hs]
      exact hb
  | setParam t id v =>
    simp only [step]
    by_cases ht : t < 2
    · exact (setParam_spec s t id v hb ht).1.2
    · unfold setParam
      cases hs : s.standby
      · cases ha : s.attached
        · exact hb
        · exact absurd ⟨by omega, ha, hs⟩ ho
      · exact hb
  | getParam t id =>
    simp only [step]
    split
    · rename_i hc
      simp only [Bool.and_eq_true, Bool.not_eq_true', decide_eq_true_eq] at hc
      exact absurd ⟨hc.2, hc.1⟩ ho
    · exact hb

/-- Those calls do end it: setting any policy of a cache without a device uses a NULL pointer; a parameter of a type
that does not exist fails an assertion. -/
theorem fatal {s : St} (h : Reach Init Step s) (o : Op) (ho : Fatal s o) : (step s o).1.bad = true := by
  have hi := inv_reach h
  cases o with
  | setPolicy t i =>
    have ha : s.attached = false := ho
    have hs : s.standby = false := by
      cases hs : s.standby
      · rfl
      · have := hi.sby hs; rw [ha] at this; cases this
    simp only [step, setPolicy]
    rw [hs, hi.none_of (Or.inl ha)]
    rfl
  | setParam t id v =>
    obtain ⟨h1, h2, h3⟩ := ho
    simp only [step, setParam, h2, h3, Bool.false_eq_true, if_false, Bool.not_true]
    rw [if_pos (show t ≥ types from h1)]
  | getParam t id =>
    obtain ⟨h1, h3⟩ := ho
    simp only [step, h3]
    rw [if_pos (by simpa [types] using h1)]
  | attach n m i l => exact absurd ho id
  | load n t a b m i ok => exact absurd ho id
  | activate n t a b m i ok => exact absurd ho id
  | standbyOn t a b => exact absurd ho id
  | standbyOff => exact absurd ho id
  | unplug => exact absurd ho id

/-! ## Cases -/

/-- Everything can be had. -/
def good : NhitIn := ⟨true, true, true, true, true, 100, true, true⟩

/-- The spinlock cannot be initialised. -/
def noSpin : NhitIn := ⟨true, true, true, true, true, 100, true, false⟩

/-- A started cache. -/
def c0 : St := { type := always }

theorem c0_reach : Reach Init Step c0 := Reach.init ⟨0, 0, 0, by decide, rfl⟩

/-- After several calls. -/
def runs (s : St) (l : List Op) : St := l.foldl (fun s o => (step s o).1) s

theorem runs_reach {s : St} (h : Reach Init Step s) (l : List Op)
    (hb : ∀ k, k ≤ l.length → (runs s (l.take k)).bad = false) : Reach Init Step (runs s l) := by
  induction l generalizing s with
  | nil => exact h
  | cons o l ih =>
    refine ih (Reach.step h ⟨o, hb 0 (Nat.zero_le _), rfl⟩) fun k hk => ?_
    have := hb (k + 1) (by simpa using hk)
    simpa [runs] using this

/-- Attached, switched to nhit, a threshold set. -/
def l1 : List Op := [.attach 20 true good .ok, .setPolicy 1 good, .setParam 1 0 7]

theorem l1_reach : Reach Init Step (runs c0 l1) :=
  runs_reach c0_reach l1 (by decide +kernel)

example : (runs c0 l1).type = nhit ∧ request (runs c0 l1) = some (some (7, 80)) ∧
    (runs c0 l1).held = ⟨1, 1, 1, 1, 1, 20, 1, 1⟩ := by decide +kernel

example : request (runs c0 l1) = some (some ((runs c0 l1).ins, (runs c0 l1).trg)) := by
  rcases request_ok l1_reach (by decide +kernel) (by decide +kernel) with h | h
  · exact absurd h.1 (by decide +kernel)
  · exact h.2

/-- Detached and attached again: the type stays, the threshold does not. -/
example : let s := runs c0 (l1 ++ [.unplug, .attach 40 true good .ok])
    s.type = nhit ∧ s.ins = 3 ∧ s.held = ⟨1, 1, 1, 1, 1, 40, 1, 1⟩ := by decide +kernel

/-- Detached: nothing is held, and setting a policy ends the program. -/
example : let s := runs c0 (l1 ++ [.unplug])
    s.held = {} ∧ (step s (.setPolicy 0 good)).1.bad = true := by decide +kernel

/-- A policy set on a cache that was never attached. -/
example : (step c0 (.setPolicy 1 good)).1.bad = true := fatal c0_reach (.setPolicy 1 good) rfl

/-- Without a spinlock the switch fails, the policy is 'always', and a ring buffer is lost each time. -/
theorem ring_lost : ∃ s, Reach Init Step s ∧ s.attached = false ∧ s.held = { ring := 2 } :=
  ⟨runs c0 [.attach 20 true good .ok, .setPolicy 1 noSpin, .setPolicy 1 noSpin, .unplug],
    runs_reach c0_reach _ (by decide +kernel), by decide +kernel, by decide +kernel⟩

/-- A lock that cannot be initialised: all is given back. -/
example : let s := runs c0 [.attach 20 true good .ok, .setPolicy 1 ⟨true, true, true, true, true, 11, true, true⟩]
    s.type = always ∧ s.held = { pol := 1 } ∧ request s = some none := by decide +kernel

/-- Standby, then activated with nhit from the superblock. -/
example : let s := runs c0 [.standbyOn 1 5 50, .activate 8 1 5 50 true good true]
    s.standby = false ∧ request s = some (some (5, 50)) := by decide +kernel

end Verif.Promo
