import Verif.Model.Promo
import Verif.Lemma.Common

/-! Lemmas on the promotion policy (C60). -/

namespace Verif.Promo

theorem hashInit_true {h : Held} {n : Nat} {i : HashIn} (hi : (hashInit h n i).2 = true) :
    (hashInit h n i).1 = { h with hash := h.hash + 1, map := h.map + 1, locks := h.locks + 1, sem := h.sem + n
                                  ring := h.ring + 1, spin := h.spin + 1 } := by
  obtain ⟨a, b, c, d, e, f⟩ := i
  unfold hashInit at *
  cases a <;> cases b <;> cases c <;> simp only [Bool.not_true, Bool.not_false, Bool.false_eq_true, if_true, if_false] at hi ⊢
  by_cases hd : d < n
  · rw [if_pos hd] at hi; simp at hi
  · rw [if_neg hd] at hi ⊢
    cases e <;> cases f <;> simp only [Bool.not_true, Bool.not_false, Bool.false_eq_true, if_true, if_false] at hi ⊢
    rw [Nat.min_eq_right (by omega)]

theorem hashInit_false {h : Held} {n : Nat} {i : HashIn} (hi : (hashInit h n i).2 = false) :
    (hashInit h n i).1 = { h with ring := h.ring + leak n i } := by
  obtain ⟨a, b, c, d, e, f⟩ := i
  unfold hashInit leak deLocks deHash deCtx at *
  cases a
  · simp
  cases b
  · simp
  cases c
  · simp
  by_cases hd : d < n
  · have : min d n = d := by omega
    have h2 : ¬ n ≤ d := by omega
    simp [hd, this, h2]
  · have : min d n = n := by omega
    have h2 : n ≤ d := by omega
    cases e
    · simp [hd, this]
    · cases f
      · simp [hd, this, h2]
      · simp [hd] at hi

/-- What the policy holds. -/
def holds : Option Pol → Nat → Held
  | none, l => { ring := l }
  | some ⟨_, _, none⟩, l => { pol := 1, ring := l }
  | some ⟨_, _, some n⟩, l => { pol := 1, ctx := 1, hash := 1, map := 1, locks := 1, sem := n, ring := l + 1, spin := 1 }

/-- The policy fits the type. -/
def fits (t : Nat) : Option Pol → Prop
  | none => True
  | some p => p.type = t ∧ (t = nhit → p.cfg = nhit ∧ p.tab.isSome = true) ∧ (t = always → p.tab = none)

/-- What holds of policies at every moment. -/
structure Inv (s : St) : Prop where
  typ : s.type < types
  has : s.pol.isSome = (s.attached && !s.standby)
  fit : fits s.type s.pol
  acc : s.held = holds s.pol s.leaks
  sby : s.standby = true → s.attached = true

theorem inv_init {s : St} (h : Init s) : Inv s := by
  obtain ⟨t, a, b, ht, rfl⟩ := h
  exact ⟨ht, rfl, trivial, rfl, fun e => (by cases e)⟩

/-- `nhit_init` for a policy without a table. -/
theorem nhitInit_spec {s : St} {p : Pol} {i : NhitIn} (hp : p.tab = none) (ha : s.held = holds (some p) s.leaks) :
    ((nhitInit s p i).2 = .ok ∧ (nhitInit s p i).1 = { s with
        pol := some { p with tab := some s.lines, cfg := nhit }
        held := holds (some { p with tab := some s.lines, cfg := nhit }) s.leaks }) ∨
    ((nhitInit s p i).2 ≠ .ok ∧ ∃ l, (nhitInit s p i).1 = { s with
        leaks := s.leaks + l, held := holds (some p) (s.leaks + l) } ∧ (i.hash.spin = true → l = 0)) := by
  obtain ⟨pt, pc, ptab⟩ := p
  simp only at hp
  subst hp
  simp only [holds] at *
  obtain ⟨r, c, hi⟩ := i
  unfold nhitInit
  cases r
  · exact Or.inr ⟨by simp, 0, by simp [← ha], fun _ => rfl⟩
  cases c
  · exact Or.inr ⟨by simp, 0, by simp [← ha], fun _ => rfl⟩
  cases hh : (hashInit { s.held with ctx := s.held.ctx + 1 } s.lines hi).2
  · right
    have := hashInit_false hh
    refine ⟨by simp [hh], leak s.lines hi, ?_, ?_⟩
    · simp only [Bool.not_true, Bool.false_eq_true, if_false, hh, Bool.not_false, if_true, this]
      simp [ha]
    · intro hsp
      simp only at hsp
      simp [leak, hsp]
  · left
    have := hashInit_true hh
    refine ⟨by simp [hh], ?_⟩
    simp only [Bool.not_true, Bool.false_eq_true, if_false, hh, this]
    simp [ha]

/-- `ocf_promotion_init` for a cache without a policy. -/
theorem promInit_spec {s : St} {m : Bool} {i : NhitIn} (ht : s.type < types) (hp : s.pol = none)
    (ha : s.held = holds none s.leaks) :
    ((promInit s m i).2 = .ok ∧ ∃ p, fits s.type (some p) ∧
      (promInit s m i).1 = { s with pol := some p, held := holds (some p) s.leaks }) ∨
    ((promInit s m i).2 ≠ .ok ∧ ∃ l, (promInit s m i).1 = { s with
        leaks := s.leaks + l, held := holds none (s.leaks + l) } ∧ (i.hash.spin = true → l = 0)) := by
  unfold promInit
  rw [if_neg (by omega)]
  cases m
  · refine Or.inr ⟨by simp, 0, ?_, fun _ => rfl⟩
    simp [← ha]
  simp only [Bool.not_true, Bool.false_eq_true, if_false]
  by_cases hn : s.type = nhit
  · rw [if_pos hn]
    have hsp := nhitInit_spec (s := { s with pol := some ⟨s.type, s.type, none⟩
                                             held := { s.held with pol := s.held.pol + 1 } })
      (p := ⟨s.type, s.type, none⟩) (i := i) rfl (by simp [holds, ha])
    rcases hsp with ⟨h1, h2⟩ | ⟨h1, l, h2, h3⟩
    · left
      rw [if_pos h1]
      refine ⟨h1, _, ?_, h2⟩
      exact ⟨rfl, fun _ => ⟨rfl, rfl⟩, fun e => by rw [hn] at e; cases e⟩
    · right
      rw [if_neg h1]
      refine ⟨h1, l, ?_, h3⟩
      rw [h2]
      simp [holds, hp]
  · rw [if_neg hn]
    left
    refine ⟨rfl, ⟨s.type, s.type, none⟩, ⟨rfl, fun e => absurd e hn, fun _ => rfl⟩, ?_⟩
    simp [holds, ha]

/-- The end of a policy. -/
theorem promDeinit_spec {s : St} (ht : s.type < types) (hf : fits s.type s.pol) (ha : s.held = holds s.pol s.leaks) :
    promDeinit s = { s with pol := none, held := holds none s.leaks } := by
  unfold promDeinit
  cases hp : s.pol with
  | none => simp only; rw [hp] at ha; rw [← ha, ← hp]
  | some p =>
    rw [hp] at hf ha
    obtain ⟨pt, pc, ptab⟩ := p
    obtain ⟨f1, f2, f3⟩ := hf
    simp only at f1 f2 f3
    simp only
    by_cases hn : pt = nhit
    · rw [if_pos hn]
      have := (f2 (by rw [← f1, hn])).2
      cases ptab with
      | none => cases this
      | some n =>
        simp only [nhitDeinit, hashDeinit]
        rw [ha]
        simp [holds]
    · rw [if_neg hn]
      have h0 : s.type = always := by
        simp only [types, nhit, always] at *
        omega
      have := f3 h0
      subst this
      rw [ha]
      simp [holds]

/-- Switching. -/
theorem switch_spec {s : St} {p : Pol} {t : Nat} {i : NhitIn} (ht : s.type < types) (hp : s.pol = some p)
    (hf : fits s.type (some p)) (ha : s.held = holds (some p) s.leaks) (ht2 : t < types) (hne : t ≠ s.type) :
    ((switch s p t i).2 = .ok ∧ ∃ q, fits t (some q) ∧
      (switch s p t i).1 = { s with type := t, pol := some q, held := holds (some q) s.leaks }) ∨
    ((switch s p t i).2 ≠ .ok ∧ t = nhit ∧ ∃ q l, fits always (some q) ∧
      (switch s p t i).1 = { s with type := always, pol := some q, leaks := s.leaks + l,
                                    held := holds (some q) (s.leaks + l) } ∧ (i.hash.spin = true → l = 0)) := by
  obtain ⟨pt, pc, ptab⟩ := p
  obtain ⟨f1, f2, f3⟩ := hf
  simp only at f1 f2 f3
  by_cases hn : s.type = nhit
  · -- from nhit to always
    have htn : t ≠ nhit := fun e => hne (by rw [e, hn])
    have hta : t = always := by simp only [types, nhit, always] at *; omega
    obtain ⟨g1, g2⟩ := f2 hn
    cases ptab with
    | none => cases g2
    | some n =>
      left
      unfold switch
      simp only [hn, if_true]
      rw [if_neg htn]
      refine ⟨rfl, ⟨t, pc, none⟩, ⟨rfl, fun e => absurd e htn, fun _ => rfl⟩, ?_⟩
      simp [nhitDeinit, hashDeinit, ha, holds]
  · have h0 : s.type = always := by simp only [types, nhit, always] at *; omega
    have htn : t = nhit := by simp only [types, nhit, always] at *; omega
    have := f3 h0
    subst this
    have hsp := nhitInit_spec (s := { s with type := t, pol := some ⟨t, pc, none⟩ }) (p := ⟨t, pc, none⟩) (i := i) rfl
      (by simpa [holds] using ha)
    unfold switch
    simp only [if_neg hn]
    rw [if_pos htn]
    rcases hsp with ⟨h1, h2⟩ | ⟨h1, l, h2, h3⟩
    · left
      rw [if_pos h1]
      refine ⟨h1, _, ?_, h2⟩
      exact ⟨rfl, fun _ => ⟨rfl, rfl⟩, fun e => by rw [htn] at e; cases e⟩
    · right
      rw [if_neg h1]
      refine ⟨h1, htn, ⟨always, pc, none⟩, l, ⟨rfl, fun e => (by cases e), fun _ => rfl⟩, ?_, h3⟩
      rw [h2]
      simp [holds]

theorem Inv.none_of {s : St} (h : Inv s) (hd : s.attached = false ∨ s.standby = true) : s.pol = none := by
  have := h.has
  cases hp : s.pol with
  | none => rfl
  | some p => rw [hp] at this; rcases hd with hd | hd <;> rw [hd] at this <;> simp at this

theorem Inv.some_of {s : St} (h : Inv s) (ha : s.attached = true) (hs : s.standby = false) :
    ∃ p, s.pol = some p ∧ fits s.type (some p) := by
  have := h.has
  have hf := h.fit
  rw [ha, hs] at this
  cases hp : s.pol with
  | none => rw [hp] at this; cases this
  | some p => rw [hp] at hf; exact ⟨p, rfl, hf⟩

theorem Inv.nhitSet {s : St} (h : Inv s) (id v : Nat) : Inv (nhitSet s id v).1 := by
  unfold Promo.nhitSet
  split
  · split
    · exact ⟨h.typ, h.has, h.fit, h.acc, h.sby⟩
    · exact h
  · split
    · split
      · exact ⟨h.typ, h.has, h.fit, h.acc, h.sby⟩
      · exact h
    · exact h

theorem Inv.load {s : St} (h : Inv s) (hp : s.pol = none) (n t a b : Nat) (m : Bool) (i : NhitIn) (ok : Bool) :
    Inv (load s n t a b m i ok).1 := by
  unfold Promo.load superblock
  by_cases ht : t ≥ types
  · rw [if_pos ht]; exact h
  · rw [if_neg ht]
    simp only
    have ht : t < types := by omega
    have ha := h.acc
    rw [hp] at ha
    have hh := h.has
    rw [hp] at hh
    have hsp := promInit_spec (s := { s with type := t, ins := a, trg := b, lines := n }) (m := m) (i := i) ht hp ha
    rcases hsp with ⟨h1, p, h2, h3⟩ | ⟨h1, l, h2, _⟩
    · rw [if_neg (by simp [h1])]
      cases ok
      · simp only [Bool.false_eq_true, if_false, h3]
        rw [promDeinit_spec (by exact ht) (by exact h2) rfl]
        exact ⟨ht, hh, trivial, rfl, h.sby⟩
      · simp only [if_true, h3]
        exact ⟨ht, rfl, h2, rfl, fun e => (by cases e)⟩
    · rw [if_pos h1, h2]
      exact ⟨ht, by rw [← hh, ← hp], by simp only [hp]; trivial, by simp only [hp], h.sby⟩

theorem Inv.attach {s : St} (h : Inv s) (hp : s.pol = none) (n : Nat) (m : Bool) (i : NhitIn) (l : Later)
    (hs : s.standby = false) : Inv (attach s n m i l).1 := by
  unfold Promo.attach
  have ha := h.acc
  rw [hp] at ha
  have hh := h.has
  rw [hp] at hh
  have hsp := promInit_spec (s := { s with lines := n }) (m := m) (i := i) h.typ hp ha
  rcases hsp with ⟨h1, p, h2, h3⟩ | ⟨h1, l, h2, _⟩
  · simp only
    rw [if_neg (by simp [h1])]
    cases l
    · simp only [h3]
      exact ⟨h.typ, by simp [setup, hs], h2, rfl, fun _ => rfl⟩
    · simp only [h3]
      rw [promDeinit_spec (by exact h.typ) (by exact h2) (by rfl)]
      exact ⟨h.typ, hh, trivial, rfl, h.sby⟩
    · simp only [h3]
      rw [promDeinit_spec (by exact h.typ) (by exact h2) (by rfl)]
      exact ⟨h.typ, hh, trivial, rfl, h.sby⟩
  · simp only
    rw [if_pos h1, h2]
    exact ⟨h.typ, by rw [← hh, ← hp], by simp only [hp]; trivial, by simp only [hp], h.sby⟩

theorem Inv.setPolicy {s : St} (h : Inv s) (t : Nat) (i : NhitIn) : Inv (setPolicy s t i).1 := by
  unfold Promo.setPolicy
  cases hs : s.standby
  · simp only [Bool.false_eq_true, if_false]
    cases hp : s.pol with
    | none =>
      have h1 := h.has
      have h2 := h.fit
      have h3 := h.acc
      rw [hp] at h1 h2 h3
      rw [hs] at h1
      exact ⟨h.typ, h1, h2, h3, fun e => (by cases e)⟩
    | some p =>
      simp only
      by_cases ht : t ≥ types
      · rw [if_pos ht]; exact h
      · rw [if_neg ht]
        by_cases he : t = s.type
        · rw [if_pos he]; exact h
        · rw [if_neg he]
          have hf := h.fit
          have ha := h.acc
          have hh := h.has
          rw [hp] at hf ha hh
          rcases switch_spec (i := i) h.typ hp hf ha (by omega) he with ⟨_, q, h2, h3⟩ | ⟨_, _, q, l, h2, h3, _⟩
          · rw [h3]; exact ⟨by simp only; omega, hh, h2, rfl, h.sby⟩
          · rw [h3]; exact ⟨by simp only; decide, hh, h2, rfl, h.sby⟩
  · simp only [if_true]; exact h

theorem Inv.step {s : St} (h : Inv s) (o : Op) : Inv (step s o).1 := by
  cases o with
  | attach n m i l =>
    simp only [Promo.step]
    split
    · exact h
    · rename_i hc
      simp only [Bool.or_eq_true, not_or, Bool.not_eq_true] at hc
      exact h.attach (h.none_of (Or.inl hc.1)) n m i l hc.2
  | load n t a b m i ok =>
    simp only [Promo.step]
    split
    · exact h
    · rename_i hc
      simp only [Bool.or_eq_true, not_or, Bool.not_eq_true] at hc
      exact h.load (h.none_of (Or.inl hc.1)) n t a b m i ok
  | activate n t a b m i ok =>
    simp only [Promo.step]
    split
    · exact h
    · rename_i hc
      simp only [Bool.not_eq_true', Bool.not_eq_false] at hc
      exact h.load (h.none_of (Or.inr hc)) n t a b m i ok
  | standbyOn t a b =>
    simp only [Promo.step]
    split
    · exact h
    · rename_i hc
      simp only [Bool.or_eq_true, not_or, Bool.not_eq_true] at hc
      have hp := h.none_of (Or.inl hc.1)
      unfold superblock
      by_cases ht : t ≥ types
      · rw [if_pos ht]; exact h
      · rw [if_neg ht]
        have ha := h.acc
        exact ⟨by simp only; omega, by simp [hp], by simp only [hp]; trivial, ha, fun _ => rfl⟩
  | standbyOff =>
    simp only [Promo.step]
    split
    · exact h
    · rename_i hc
      simp only [Bool.not_eq_true', Bool.not_eq_false] at hc
      have hp := h.none_of (Or.inr hc)
      exact ⟨h.typ, by simp [hp], by simp only [hp]; trivial, h.acc, fun e => (by cases e)⟩
  | unplug =>
    simp only [Promo.step]
    split
    · exact h
    · rename_i hc
      rw [promDeinit_spec h.typ h.fit h.acc]
      exact ⟨h.typ, rfl, trivial, rfl, fun e => absurd e hc⟩
  | setPolicy t i => exact h.setPolicy t i
  | setParam t id v =>
    simp only [Promo.step, setParam]
    split
    · exact h
    · split
      · exact h
      · split
        · exact ⟨h.typ, h.has, h.fit, h.acc, h.sby⟩
        · split
          · exact h.nhitSet id v
          · exact h
  | getParam t id =>
    simp only [Promo.step]
    split
    · exact ⟨h.typ, h.has, h.fit, h.acc, h.sby⟩
    · exact h

theorem inv_reach {s : St} (h : Reach Init Step s) : Inv s :=
  Reach.inv (P := Inv) (fun _ h => inv_init h) (fun _ _ h ⟨o, _, e⟩ => e ▸ h.step o) s h

end Verif.Promo
