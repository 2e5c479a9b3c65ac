import Verif.Lemma.PolicySwitchTh

/-! Steps of the management operation (C56). -/

namespace Verif.PolicySwitch

theorem no_use {s : St} (h : s.ths.countP hold = 0) (pol : Pol) (ctx : Option Pol)
    (g : ∀ t ∈ s.ths, thOk s.pol s.ctx t) : ∀ t ∈ s.ths, thOk pol ctx t := by
  intro t ht
  have h1 := g t ht
  have h2 : hold t = false := by
    rw [List.countP_eq_zero] at h
    have := h t ht
    simpa using this
  unfold thOk at h1 ⊢
  unfold hold at h2
  cases hp : t.pc <;> rw [hp] at h1 h2 <;> first | exact h1 | (cases h2; done)

/-- Without cache device no thread holds a reference. -/
theorem G.det_hold {s : St} (g : G s) (ha : s.att = false) : s.ths.countP hold = 0 := by
  have h1 := g.ati ha
  have h2 := g.mg
  rw [if_neg (g.atm ha).1] at h2
  rw [List.countP_eq_zero] at h2 ⊢
  rw [List.countP_eq_zero, List.countP_eq_zero] at h1
  intro t ht
  have a := h1.1 t ht
  have b := h1.2 t ht
  have c := h2 t ht
  unfold ioL at a
  unfold clL at b
  unfold mgL at c
  unfold hold
  revert a b c
  cases t.kind <;> cases t.pc <;> simp

theorem opt_gone {s : St} (g : G s) (h : s.op ≠ .idle) : s.ths.countP clLk = 0 ∧ s.out = none ∧ s.lk = true := by
  have l := g.lk
  rw [if_neg h] at l
  have u1 : (if s.lk = true then 1 else 0) ≤ 1 := by split <;> omega
  refine ⟨by omega, ?_, ?_⟩
  · cases hx : s.out with
    | none => rfl
    | some q => rw [hx] at l; simp only [Option.isSome_some, if_true] at l; omega
  · cases hx : s.lk
    · rw [hx] at l
      rw [if_neg (by simp : ¬ (false = true))] at l
      omega
    · rfl

/-- Fill in the fields of the invariant. -/
local macro "fill" : tactic =>
  `(tactic| (constructor <;> first
    | assumption
    | (simp only [Op.own, Op.frz, Op.exc, Op.reg, Op.aft, Op.wai, Op.att, Op.dta, ctxOk, swOk,
        Bool.false_eq_true, false_implies, if_true, if_false, reduceCtorEq, implies_true, Nat.add_zero,
        Nat.zero_add, Option.isSome_none]; first | done | assumption | omega)
    | simp_all [Op.own, Op.frz, Op.exc, Op.reg, Op.aft, Op.wai, Op.att, Op.dta, ctxOk, swOk, fits,
        -List.countP_eq_zero]
    | (simp_all [Op.own, Op.frz, Op.exc, Op.reg, Op.aft, Op.wai, Op.att, Op.dta, ctxOk, swOk, fits,
        -List.countP_eq_zero] <;> omega)))

set_option maxHeartbeats 8000000 in
theorem G.op_step {e : Env} {s u : St} (g : G s) {c : Bool} (hs : opStep e s c = some u)
    (hc : u.crash = false) (hp : u.stopped = false) : G u := by
  have hne : s.op ≠ .idle := by
    intro x
    simp only [opStep, x] at hs
    cases hs
  obtain ⟨q1, q2, q3⟩ := opt_gone g hne
  have g1 := g.rc
  have g2 := g.fz
  have g3 := g.cb
  have g4 := g.wai
  have g5 := g.aft
  have g6 := g.mdx
  have g7 := g.exc
  have g9 := g.mg
  have g10 := g.ati
  have g11 := g.atm
  have g12 := g.atx
  have g13 := g.dt
  have g14 := g.th
  have g16 := g.ctx
  have g17 := g.sw
  have g18 := g.ref
  have g19 := g.rep
  have nu := @no_use s
  have dh := g.det_hold
  unfold ctxOk at g16
  unfold swOk at g17
  cases ho : s.op <;> rw [ho] at g1 g2 g3 g4 g5 g6 g7 g9 g11 g12 g13 g16 g17 <;>
    simp only [Op.own, Op.frz, Op.exc, Op.reg, Op.aft, Op.wai, Op.att, Op.dta, reduceCtorEq, if_true,
      if_false, Bool.false_eq_true, false_implies, forall_const, Nat.add_zero, ne_eq, not_true_eq_false,
      not_false_eq_true, true_and, and_true] at g1 g2 g3 g4 g5 g6 g7 g9 g11 g12 g13 g16 g17 <;>
    simp only [opStep, ho] at hs
  case idle => cases hs
  case hook => cases hs
  case swWait => cases hs
  case swEx o n =>
    split at hs
    · rename_i hn
      cases hs
      have hn := noIo_count hn
      fill
    · cases hs
  case swFz o n => cases hs; fill
  case swReg o n =>
    split at hs
    · cases hs; cases hc
    · cases hs; fill
  case swRegD o n =>
    cases hs
    by_cases h0 : s.ths.countP hold = 0
    · have e1 : s.rc = 1 := by omega
      have e2 : decr { s with op := .swWait o n } = { s with rc := 0, cb := false, op := .swDeinit o n } := by
        simp [decr, e1, g3]
      rw [e2]
      fill
    · have e1 : s.rc ≠ 0 := by omega
      have e3 : ¬ (s.rc = 1 && s.cb) = true := by
        simp
        intro x
        omega
      have e2 : decr { s with op := .swWait o n } = { s with rc := s.rc - 1, op := .swWait o n } := by
        simp only [decr, if_neg e1, if_neg e3]
      rw [e2]
      have e4 : s.rc - 1 = s.ths.countP hold := by omega
      rw [e4]
      fill
  case swDeinit o n =>
    have z : s.ths.countP hold = 0 := by omega
    clear g1
    cases hs
    have nu := nu z
    clear hp g
    unfold deinit at hc ⊢
    simp only at hc ⊢
    split
    · fill
    · rename_i h1
      rw [if_neg h1] at hc
      split at hc
      · rename_i h2
        rw [if_pos h2]
        have := nu s.pol none g14
        fill
      · cases hc
  case swInit o n =>
    have z : s.ths.countP hold = 0 := by omega
    clear g1
    have nu := nu z
    clear hp g
    split at hs
    · cases hs
      unfold initPol at hc ⊢
      cases n
      · have := nu s.pol s.ctx g14
        fill
      · simp only at hc ⊢
        split at hc
        · rename_i h2
          rw [if_pos h2]
          have := nu s.pol (some .alru) g14
          fill
        · cases hc
      · simp only at hc ⊢
        split at hc
        · cases hc
        · rename_i h2
          rw [if_neg h2]
          have := nu s.pol (some .acp) g14
          fill
    · cases hs
      have := nu .nop s.ctx g14
      fill
  case swPop o n =>
    have z : s.ths.countP hold = 0 := by omega
    clear g1
    have nu := nu z
    clear hp g
    have n1 := nu n s.ctx g14
    have n2 := nu .nop s.ctx g14
    repeat' split at hs
    all_goals cases hs
    all_goals first | (cases hc; done) | fill
  case swFin o n err =>
    have z : s.ths.countP hold = 0 := by omega
    clear g1
    have nu := nu z
    clear hp g
    have hr : repOk ⟨o, n, if err then .failed else .done, s.pol, s.att⟩ := by
      cases err <;> simp_all [repOk]
    split at hs
    · cases hs; cases hc
    · cases hs
      fill
  case atInit =>
    have nu := nu (dh g12)
    clear hp g
    split at hs
    · cases hs
      unfold initPol at hc ⊢
      cases hpl : s.pol
      · have := nu s.pol s.ctx g14
        fill
      · rw [hpl] at hc
        have := nu s.pol (some .alru) g14
        simp only [if_true] at hc ⊢
        fill
      · simp only [hpl] at hc ⊢
        split at hc
        · cases hc
        · rename_i h2
          rw [if_neg h2]
          have := nu s.pol (some .acp) g14
          fill
    · cases hs
      fill
  case atPop =>
    repeat' split at hs
    all_goals cases hs
    all_goals fill
  case atLate =>
    have nu := nu (dh g12)
    clear hp g
    split at hs
    · cases hs; fill
    · cases hs
      unfold deinit at hc ⊢
      simp only at hc ⊢
      split
      · fill
      · rename_i h1
        rw [if_neg h1] at hc
        split at hc
        · rename_i h2
          rw [if_pos h2]
          have := nu s.pol none g14
          fill
        · cases hc
  case ldInit b =>
    have nu := nu (dh g12)
    clear hp g
    split at hs
    · cases hs
      unfold initPol at hc ⊢
      cases hpl : s.pol
      · have := nu s.pol s.ctx g14
        cases b <;> fill
      · rw [hpl] at hc
        have := nu s.pol (some .alru) g14
        simp only [if_true] at hc ⊢
        cases b <;> fill
      · simp only [hpl] at hc ⊢
        split at hc
        · cases hc
        · rename_i h2
          rw [if_neg h2]
          have := nu s.pol (some .acp) g14
          cases b <;> fill
    · cases hs
      fill
  case ldPop =>
    repeat' split at hs
    all_goals cases hs
    all_goals fill
  case ldLate =>
    repeat' split at hs
    all_goals cases hs
    all_goals fill
  case dtWait b =>
    split at hs
    · rename_i hn
      cases hs
      have hn := noIo_count hn
      fill
    · cases hs
  case dtDeinit b =>
    split at hs
    · rename_i hn
      cases hs
      have hn := noCl_count hn
      have hi := g13 b rfl
      have hh : s.ths.countP hold = 0 := by
        rw [List.countP_eq_zero] at hn hi g9 ⊢
        intro t ht
        have a := hi t ht
        have b := hn t ht
        have c := g9 t ht
        unfold ioL at a
        unfold clL at b
        unfold mgL at c
        unfold hold
        revert a b c
        cases t.kind <;> cases t.pc <;> simp
      have nu := nu hh
      unfold deinit at hc hp ⊢
      simp only at hc hp ⊢
      split
      · rename_i h1
        rw [if_pos h1] at hp
        fill
      · rename_i h1
        rw [if_neg h1] at hc hp
        split at hc
        · rename_i h2
          rw [if_pos h2] at hp
          rw [if_pos h2]
          have := nu s.pol none g14
          fill
        · cases hc
    · cases hs

end Verif.PolicySwitch
