import Verif.Lemma.PolicySwitchOp

/-! The invariant holds in every state (C56). -/

namespace Verif.PolicySwitch

theorem count_app (p : Th → Bool) (l : List Th) (t : Th) :
    (l ++ [t]).countP p = l.countP p + if p t then 1 else 0 := by
  simp [List.countP_append, List.countP_cons]

theorem th_app {s : St} {t' : Th} {pol : Pol} {ctx : Option Pol}
    (h : ∀ t ∈ s.ths, thOk pol ctx t) (h' : thOk pol ctx t') : ∀ t ∈ s.ths ++ [t'], thOk pol ctx t := by
  intro u hu
  rw [List.mem_append] at hu
  rcases hu with hu | hu
  · exact h u hu
  · rw [List.mem_singleton] at hu
    exact hu ▸ h'

theorem lk_free {s : St} (g : G s) (h : s.lk = false) : s.op = .idle ∧ s.out = none ∧ s.ths.countP clLk = 0 := by
  have l := g.lk
  rw [h] at l
  simp only [Bool.false_eq_true, if_false] at l
  refine ⟨?_, ?_, by omega⟩
  · apply Classical.byContradiction
    intro hn
    rw [if_neg hn] at l
    omega
  · cases hx : s.out with
    | none => rfl
    | some q => rw [hx] at l; simp only [Option.isSome_some, if_true] at l; omega

theorem G.io {s : St} (g : G s) (n : Nat) (ha : s.att = true) (hm : s.mdx = false)
    (hd : ∀ b, s.op ≠ .dtDeinit b) : G { s with ths := s.ths ++ [⟨.io, n, .lk⟩] } where
  rc := by have := g.rc; simp only [count_app]; exact this
  fz := g.fz
  cb := g.cb
  wai := g.wai
  aft := g.aft
  mdx := g.mdx
  exc := by
    intro x
    have h := g.mdx
    rw [hm] at h
    rw [x] at h
    cases h
  lk := by have := g.lk; simp only [count_app]; exact this
  mg := by have := g.mg; simp only [count_app]; exact this
  ati := by intro x; rw [ha] at x; cases x
  atm := by intro x; rw [ha] at x; cases x
  atx := g.atx
  dt := fun b x => (hd b x).elim
  th := th_app g.th (fun x => absurd rfl x)
  out := g.out
  ctx := g.ctx
  sw := g.sw
  ref := g.ref
  rep := g.rep

theorem G.cl {s : St} (g : G s) (ha : s.att = true) (hl : s.lk = false) :
    G { s with ths := s.ths ++ [⟨.cl, 1, .lk⟩], lk := true } := by
  obtain ⟨h1, h2, h3⟩ := lk_free g hl
  refine ⟨?_, g.fz, g.cb, g.wai, g.aft, g.mdx, ?_, ?_, ?_, ?_, ?_, g.atx, ?_, th_app g.th (fun _ => rfl), g.out,
    g.ctx, g.sw, g.ref, g.rep⟩
  · have := g.rc; simp only [count_app]; exact this
  · intro x; rw [h1] at x; cases x
  · simp only [count_app, h1, h2, h3]; rfl
  · have := g.mg; simp only [count_app]; exact this
  · intro x; rw [ha] at x; cases x
  · intro x; rw [ha] at x; cases x
  · intro b x; rw [h1] at x; cases x

theorem G.core {s : St} (g : G s) (ha : s.att = true) (hl : s.lk = false) :
    G { s with ths := s.ths ++ [⟨.mg, 1, .lk⟩], lk := true, op := .hook } := by
  obtain ⟨h1, h2, h3⟩ := lk_free g hl
  have e1 := g.rc
  have e2 := g.fz
  have e3 := g.cb
  have e4 := g.mdx
  have e5 := g.mg
  have e6 := g.ctx
  unfold ctxOk at e6
  rw [h1] at e1 e2 e3 e4 e5 e6
  refine ⟨?_, e2, e3, fun x => (by cases x), fun x => (by cases x), e4, fun x => (by cases x), ?_, ?_, ?_, ?_,
    fun x => (by cases x), fun b x => (by cases x), th_app g.th (fun _ => rfl), g.out, e6, trivial, g.ref, g.rep⟩
  · simp only [count_app]; exact e1
  · simp only [count_app, h2, h3]; rfl
  · simp only [count_app, e5]; rfl
  · intro x; rw [ha] at x; cases x
  · intro x; rw [ha] at x; cases x

/-- The start of an operation that takes the lock, other than `hook`. -/
theorem G.start {s : St} (g : G s) (hl : s.lk = false) (op' : Op) (pol' : Pol) (cd' : Bool)
    (h0 : op' ≠ .idle) (h1 : op'.frz = false) (h2 : op'.exc = false) (h3 : op' ≠ .hook)
    (h4 : op'.att = true → s.att = false) (h5 : op'.dta = true → s.att = true)
    (h6 : ∀ b, op' ≠ .dtDeinit b) (h7 : pol' = s.pol ∨ s.att = false)
    (h8 : ctxOk { s with op := op', pol := pol' }) (h9 : swOk { s with op := op', pol := pol' }) :
    G { s with op := op', lk := true, pol := pol', cd := cd' } := by
  obtain ⟨f1, f2, f3⟩ := lk_free g hl
  have e1 := g.rc
  have e2 := g.fz
  have e3 := g.cb
  have e4 := g.mdx
  have e5 := g.mg
  rw [f1] at e1 e2 e3 e4 e5
  have r1 : op'.own = false := by cases op' <;> first | rfl | (cases h1; done)
  have r2 : op'.reg = false := by cases op' <;> first | rfl | (cases h1; done)
  have r3 : op'.wai = false := by cases op' <;> first | rfl | (cases h1; done)
  have r4 : op'.aft = false := by cases op' <;> first | rfl | (cases h1; done)
  refine ⟨?_, ?_, ?_, ?_, ?_, ?_, ?_, ?_, ?_, g.ati, ?_, h4, fun b x => (h6 b x).elim, ?_, ?_, h8, h9, g.ref, g.rep⟩
  · simp only [r1]; exact e1
  · simp only [h1]; exact e2
  · simp only [r2]; exact e3
  · intro x; simp only [r3] at x; cases x
  · intro x; simp only [r4] at x; cases x
  · simp only [h2]; exact e4
  · intro x; simp only [h2] at x; cases x
  · simp only [f2, f3, if_neg h0]; rfl
  · simp only [if_neg h3]; exact e5
  · intro x
    refine ⟨h3, f2, ?_⟩
    cases hd : op'.dta
    · rfl
    · rw [h5 hd] at x; cases x
  · rcases h7 with h7 | h7
    · rw [h7]; exact g.th
    · exact no_use (g.det_hold h7) _ _ g.th
  · intro p hp
    rw [f2] at hp
    cases hp

theorem fits_own {p : Pol} : fits (own p) p = true := by cases p <;> rfl

/-- What a step of the operation does to reports and to the place where the switch runs. -/
structure OpEff (e : Env) (s u : St) : Prop where
  ref : u.refused = s.refused
  rep : ∀ r ∈ u.rep, r ∈ s.rep ∨ (repOk r ∧ r.att = s.att ∧ s.op.swi = true ∧
    (strict e = true → r.out = .done → s.att = true))
  sd : u.op.swi = true → s.op.swi = true ∧ u.att = s.att

theorem decr_eff (s : St) : (decr s).rep = s.rep ∧ (decr s).att = s.att ∧ (decr s).refused = s.refused ∧
    ((decr s).op.swi = s.op.swi) ∧ (decr s).lost = s.lost ∧ (decr s).ctx = s.ctx ∧ (decr s).pol = s.pol ∧
    (decr s).stopped = s.stopped := by
  unfold decr
  split
  · exact ⟨rfl, rfl, rfl, rfl, rfl, rfl, rfl, rfl⟩
  · split
    · refine ⟨rfl, rfl, rfl, ?_, rfl, rfl, rfl, rfl⟩
      cases s.op <;> rfl
    · exact ⟨rfl, rfl, rfl, rfl, rfl, rfl, rfl, rfl⟩

theorem deinit_eff (s : St) : (deinit s).rep = s.rep ∧ (deinit s).att = s.att ∧ (deinit s).refused = s.refused ∧
    (deinit s).op = s.op ∧ (deinit s).lost = s.lost ∧ (deinit s).pol = s.pol ∧ (deinit s).stopped = s.stopped := by
  unfold deinit
  split
  · exact ⟨rfl, rfl, rfl, rfl, rfl, rfl, rfl⟩
  · split
    · exact ⟨rfl, rfl, rfl, rfl, rfl, rfl, rfl⟩
    · exact ⟨rfl, rfl, rfl, rfl, rfl, rfl, rfl⟩

theorem initPol_eff (s : St) (d : Bool) (p : Pol) : (initPol s d p).rep = s.rep ∧ (initPol s d p).att = s.att ∧
    (initPol s d p).refused = s.refused ∧ (initPol s d p).op = s.op ∧ (initPol s d p).pol = s.pol ∧
    (initPol s d p).stopped = s.stopped := by
  cases p
  · exact ⟨rfl, rfl, rfl, rfl, rfl, rfl⟩
  · cases d <;> exact ⟨rfl, rfl, rfl, rfl, rfl, rfl⟩
  · unfold initPol
    cases s.ctx.isSome <;> exact ⟨rfl, rfl, rfl, rfl, rfl, rfl⟩

theorem initPol_none {s : St} {d : Bool} (h : s.ctx = none) (p : Pol) :
    (initPol s d p).lost = s.lost ∧ ((initPol s d p).crash = s.crash ∧ (initPol s d p).ctx = own p ∨
      d = false ∧ p = .alru ∧ (initPol s d p).crash = true) := by
  cases p
  · exact ⟨rfl, Or.inl ⟨rfl, h⟩⟩
  · cases d
    · exact ⟨rfl, Or.inr ⟨rfl, rfl, rfl⟩⟩
    · simp [initPol, h, own]
  · simp [initPol, h, own]

theorem deinit_own {s : St} (h : s.ctx = own s.pol) : (deinit s).crash = s.crash ∧ (deinit s).ctx = none := by
  unfold deinit own at *
  by_cases hp : s.pol = .nop
  · rw [if_pos hp] at h ⊢
    exact ⟨rfl, h⟩
  · rw [if_neg hp] at h ⊢
    rw [if_pos h]
    exact ⟨rfl, rfl⟩

set_option maxHeartbeats 1000000 in
theorem op_eff {e : Env} {s u : St} (g : G s) (hx : strict e = true → ctxEx s) {c : Bool}
    (hs : opStep e s c = some u) : OpEff e s u := by
  have g17 := g.sw
  unfold swOk at g17
  unfold ctxEx at hx
  cases ho : s.op <;> rw [ho] at g17 hx <;> simp only [opStep, ho] at hs
  case swRegD o n =>
    cases hs
    have := decr_eff { s with op := .swWait o n }
    refine ⟨this.2.2.1, fun r hr => Or.inl (this.1 ▸ hr), fun x => ⟨by rw [ho]; rfl, this.2.1⟩⟩
  case swDeinit o n =>
    cases hs
    have := deinit_eff { s with op := .swInit o n }
    refine ⟨this.2.2.1, fun r hr => Or.inl (this.1 ▸ hr), fun x => ⟨by rw [ho]; rfl, this.2.1⟩⟩
  case swInit o n =>
    split at hs
    · cases hs
      have := initPol_eff { s with op := .swPop o n } s.att n
      refine ⟨this.2.2.1, fun r hr => Or.inl (this.1 ▸ hr), fun x => ⟨by rw [ho]; rfl, this.2.1⟩⟩
    · cases hs
      exact ⟨rfl, fun r hr => Or.inl hr, fun x => ⟨by rw [ho]; rfl, rfl⟩⟩
  case swFin o n err =>
    split at hs
    · cases hs
      exact ⟨rfl, fun r hr => Or.inl hr, fun x => ⟨by rw [ho]; rfl, rfl⟩⟩
    · cases hs
      refine ⟨rfl, ?_, fun x => (by cases x)⟩
      intro r hr
      rcases List.mem_cons.mp hr with hr | hr
      · right
        subst hr
        refine ⟨?_, rfl, by rw [ho]; rfl, ?_⟩
        · cases err
          · exact ⟨g17.1, g17.2⟩
          · exact ⟨g17.1, g17.2⟩
        · intro hst hd
          cases ha : s.att
          · have := ((hx hst).2 ha).2
            subst this
            cases hd
          · rfl
      · exact Or.inl hr
  case atInit =>
    split at hs
    · cases hs
      have := initPol_eff { s with op := .atPop, rc := 0, fz := 0, cb := false } true s.pol
      refine ⟨this.2.2.1, fun r hr => Or.inl (this.1 ▸ hr), fun x => ?_⟩
      rw [this.2.2.2.1] at x
      cases x
    · cases hs
      exact ⟨rfl, fun r hr => Or.inl hr, fun x => (by cases x)⟩
  case ldInit b =>
    split at hs
    · cases hs
      have := initPol_eff { s with op := if b then .ldLate else .ldPop, rc := 0, fz := 0, cb := false } true s.pol
      refine ⟨this.2.2.1, fun r hr => Or.inl (this.1 ▸ hr), fun x => ?_⟩
      rw [this.2.2.2.1] at x
      cases b <;> cases x
    · cases hs
      exact ⟨rfl, fun r hr => Or.inl hr, fun x => (by cases x)⟩
  case atLate =>
    split at hs
    · cases hs
      exact ⟨rfl, fun r hr => Or.inl hr, fun x => (by cases x)⟩
    · cases hs
      have := deinit_eff { s with op := .idle, lk := false }
      refine ⟨this.2.2.1, fun r hr => Or.inl (this.1 ▸ hr), fun x => ?_⟩
      rw [this.2.2.2.1] at x
      cases x
  case dtDeinit b =>
    split at hs
    · cases hs
      have := deinit_eff { s with op := .idle, lk := false, att := false, stopped := b }
      refine ⟨this.2.2.1, fun r hr => Or.inl (this.1 ▸ hr), fun x => ?_⟩
      rw [this.2.2.2.1] at x
      cases x
    · cases hs
  all_goals (repeat' split at hs)
  all_goals first
    | (cases hs; done)
    | (cases hs; exact ⟨rfl, fun r hr => Or.inl hr, fun x => ⟨by rw [ho]; rfl, rfl⟩⟩)
    | (cases hs; exact ⟨rfl, fun r hr => Or.inl hr, fun x => (by cases x)⟩)

set_option maxHeartbeats 1000000 in
theorem ex_op {e : Env} {s u : St} (g : G s) (hst : strict e = true) (hs0 : s.crash = false)
    (hx : ctxEx s) {c : Bool} (hs : opStep e s c = some u) :
    (u.crash = false → ctxEx u) ∧ u.lost = s.lost ∧ ((s.op.swi = true → s.att = true) → u.crash = false) := by
  have g1 := g.rc
  have g2 := g.fz
  have g3 := g.cb
  have g11 := g.atm
  have g17 := g.sw
  unfold swOk at g17
  unfold ctxEx at hx
  have hp : e.pop = false ∧ e.late = false := by
    unfold strict at hst
    simpa using hst
  cases ho : s.op <;> rw [ho] at g1 g2 g3 g11 g17 hx <;> simp only [opStep, ho, hp.1, hp.2] at hs
  case swReg o n =>
    simp only [Op.frz, if_true, Op.reg] at g2 g3
    rw [g2, g3] at hs
    cases hs
    exact ⟨fun _ => hx, rfl, fun _ => hs0⟩
  case swRegD o n =>
    cases hs
    have hd := decr_eff { s with op := .swWait o n }
    have hr : s.rc ≠ 0 := by simp only [Op.own, if_true] at g1; omega
    refine ⟨fun _ => ?_, hd.2.2.2.2.1, fun _ => ?_⟩
    · unfold decr
      rw [if_neg hr]
      split
      · exact hx
      · exact hx
    · unfold decr
      rw [if_neg hr]
      split
      · exact hs0
      · exact hs0
  case swDeinit o n =>
    cases hs
    have hd := deinit_eff { s with op := .swInit o n }
    refine ⟨fun hc => ?_, hd.2.2.2.2.1, fun hw => ?_⟩
    · unfold ctxEx
      rw [hd.2.1, hd.2.2.2.1, hd.2.2.2.2.2.1]
      simp only
      cases ha : s.att
      · rw [ha] at hx
        simp only [Bool.false_eq_true, if_false] at hx
        unfold deinit at hc ⊢
        simp only at hc ⊢
        by_cases hp : s.pol = .nop
        · rw [if_pos hp]
          exact ⟨hx, fun _ => hp⟩
        · rw [if_neg hp, if_neg (by rw [hx]; simp)] at hc
          cases hc
      · rw [ha] at hx
        have := deinit_own (s := { s with op := .swInit o n }) hx
        rw [ha] at this
        exact ⟨this.2, fun x => (by cases x)⟩
    · rw [hw rfl] at hx
      have := deinit_own (s := { s with op := .swInit o n }) hx
      rw [this.1]
      exact hs0
  case swInit o n =>
    split at hs
    · cases hs
      have hd := initPol_eff { s with op := .swPop o n } s.att n
      have hn := initPol_none (s := { s with op := .swPop o n }) (d := s.att) hx.1 n
      refine ⟨fun hc => ?_, hn.1, fun hw => ?_⟩
      · unfold ctxEx
        rw [hd.2.1, hd.2.2.2.1, hd.2.2.2.2.1]
        rcases hn.2 with hn | hn
        · exact ⟨hn.2, hx.2⟩
        · rw [hn.2.2] at hc; cases hc
      · rcases hn.2 with hn | hn
        · rw [hn.1]; exact hs0
        · rw [hw rfl] at hn
          cases hn.1
    · cases hs
      exact ⟨fun _ => ⟨hx.1, fun _ => ⟨rfl, rfl⟩⟩, rfl, fun _ => hs0⟩
  case swPop o n =>
    split at hs
    · rename_i hn
      have hn : n = .nop := by simpa using hn
      cases hs
      refine ⟨fun _ => ⟨hx.1, fun ha => ?_⟩, rfl, fun _ => hs0⟩
      exact absurd (hn.trans ((hx.2 ha).symm.trans g17.2)) g17.1
    · split at hs
      · split at hs
        · rename_i ha
          cases hs
          exact ⟨fun _ => ⟨hx.1, fun hb => (by simp only at hb; rw [ha] at hb; cases hb)⟩, rfl, fun _ => hs0⟩
        · rename_i ha
          cases hs
          refine ⟨fun hc => (by cases hc), rfl, fun hw => ?_⟩
          exact absurd (hw rfl) ha
      · cases hs
  case swFin o n err =>
    simp only [Op.frz, if_true] at g2
    rw [g2] at hs
    cases hs
    refine ⟨fun _ => ?_, rfl, fun _ => hs0⟩
    unfold ctxEx
    simp only
    cases ha : s.att
    · have := (hx.2 ha).1
      rw [hx.1, this]; rfl
    · exact hx.1
  case atInit =>
    split at hs
    · cases hs
      have hd := initPol_eff { s with op := .atPop, rc := 0, fz := 0, cb := false } true s.pol
      have hn := initPol_none (s := { s with op := .atPop, rc := 0, fz := 0, cb := false }) (d := true) hx s.pol
      rcases hn.2 with hn2 | hn2
      · refine ⟨fun hc => ?_, hn.1, fun _ => (by rw [hn2.1]; exact hs0)⟩
        unfold ctxEx
        rw [hd.2.2.2.1, hd.2.2.2.2.1]
        exact hn2.2
      · cases hn2.1
    · cases hs
      refine ⟨fun _ => ?_, rfl, fun _ => hs0⟩
      unfold ctxEx
      simp only
      have := g.atx (by rw [ho]; rfl)
      rw [this]
      exact hx
  case ldInit b =>
    split at hs
    · cases hs
      have hd := initPol_eff { s with op := if b then .ldLate else .ldPop, rc := 0, fz := 0, cb := false } true s.pol
      have hn := initPol_none (s := { s with op := if b then .ldLate else .ldPop, rc := 0, fz := 0, cb := false })
        (d := true) hx s.pol
      rcases hn.2 with hn2 | hn2
      · refine ⟨fun hc => ?_, hn.1, fun _ => (by rw [hn2.1]; exact hs0)⟩
        unfold ctxEx
        rw [hd.2.2.2.1, hd.2.2.2.2.1]
        cases b <;> exact hn2.2
      · cases hn2.1
    · cases hs
      refine ⟨fun _ => ?_, rfl, fun _ => hs0⟩
      unfold ctxEx
      simp only
      have := g.atx (by rw [ho]; rfl)
      rw [this]
      exact hx
  case atLate =>
    split at hs
    · cases hs
      exact ⟨fun _ => hx, rfl, fun _ => hs0⟩
    · cases hs
      have hd := deinit_eff { s with op := .idle, lk := false }
      have := deinit_own (s := { s with op := .idle, lk := false }) hx
      refine ⟨fun _ => ?_, hd.2.2.2.2.1, fun _ => (by rw [this.1]; exact hs0)⟩
      unfold ctxEx
      rw [hd.2.1, hd.2.2.2.1]
      have ha := g.atx (by rw [ho]; rfl)
      show _ = if s.att = true then _ else none
      rw [if_neg (by rw [ha]; decide)]
      exact this.2
  case dtDeinit b =>
    split at hs
    · cases hs
      have hd := deinit_eff { s with op := .idle, lk := false, att := false, stopped := b }
      have ha : s.att = true := by
        cases ha : s.att
        · exact absurd (g11 ha).2.2 (by simp [Op.dta])
        · rfl
      rw [ha] at hx
      have := deinit_own (s := { s with op := .idle, lk := false, att := false, stopped := b }) hx
      refine ⟨fun _ => ?_, hd.2.2.2.2.1, fun _ => (by rw [this.1]; exact hs0)⟩
      unfold ctxEx
      rw [hd.2.1, hd.2.2.2.1]
      exact this.2
    · cases hs
  all_goals (repeat' split at hs)
  all_goals first
    | contradiction
    | (cases hs; done)
    | (cases hs; exact ⟨fun _ => hx, rfl, fun _ => hs0⟩)

theorem inv_init (e : Env) : Inv e init where
  g := fun _ _ => by
    constructor <;> simp [init, Op.frz, Op.exc, Op.reg, Op.aft, Op.own, Op.wai, Op.att, Op.dta, ctxOk, swOk]
  ex := fun _ _ _ => rfl
  lost := fun _ => rfl
  ref := rfl
  rep := fun r hr => (by cases hr)
  ok := fun _ _ => rfl
  dn := fun _ r hr => (by cases hr)
  dr := fun _ r hr => (by cases hr)
  sd := fun _ h => (by cases h)

/-- The start of an operation other than `hook`, with what it says of the invariant. -/
theorem Inv.start {e : Env} {s : St} (v : Inv e s) (g : G s) (hc : s.crash = false) (hl : s.lk = false)
    (op' : Op) (pol' : Pol) (cd' : Bool) (h : G { s with op := op', lk := true, pol := pol', cd := cd' })
    (hx : strict e = true → ctxEx { s with op := op', lk := true, pol := pol', cd := cd' })
    (hd : e.det = false → op'.swi = true → s.att = true) :
    Inv e { s with op := op', lk := true, pol := pol', cd := cd' } where
  g := fun _ _ => h
  ex := fun _ _ => hx
  lost := v.lost
  ref := v.ref
  rep := v.rep
  ok := v.ok
  dn := v.dn
  dr := v.dr
  sd := hd

/-- A report that comes at once. -/
theorem Inv.report {e : Env} {s : St} (v : Inv e s) (r : Rep) (h : repOk r) (ho : r.out ≠ .done)
    (ha : e.det = false → r.att = true) : Inv e { s with rep := r :: s.rep } where
  g := fun hc hp => by
    have g := v.g hc hp
    exact ⟨g.rc, g.fz, g.cb, g.wai, g.aft, g.mdx, g.exc, g.lk, g.mg, g.ati, g.atm, g.atx, g.dt, g.th, g.out,
      g.ctx, g.sw, g.ref, fun q hq => (List.mem_cons.mp hq).elim (fun x => x ▸ h) (g.rep q)⟩
  ex := v.ex
  lost := v.lost
  ref := v.ref
  rep := fun q hq => (List.mem_cons.mp hq).elim (fun x => x ▸ h) (v.rep q)
  ok := v.ok
  dn := fun hs q hq hf hd => (List.mem_cons.mp hq).elim (fun x => ho (x ▸ hd)) (fun x => v.dn hs q x hf hd)
  dr := fun hs q hq => (List.mem_cons.mp hq).elim (fun x => x ▸ ha hs) (fun x => v.dr hs q x)
  sd := v.sd

theorem Inv.opStep {e : Env} {s u : St} (v : Inv e s) (hc : s.crash = false) (hp : s.stopped = false)
    {c : Bool} (hs : opStep e s c = some u) : Inv e u := by
  have g := v.g hc hp
  have ef := op_eff g (v.ex hc hp) hs
  refine ⟨g.op_step hs, fun h1 _ hst => (ex_op g hst hc (v.ex hc hp hst) hs).1 h1,
    fun hst => (ex_op g hst hc (v.ex hc hp hst) hs).2.1.trans (v.lost hst), ef.ref.trans v.ref, ?_,
    fun hst hd => (ex_op g hst hc (v.ex hc hp hst) hs).2.2 (v.sd hd), ?_, ?_, ?_⟩
  · intro r hr
    rcases ef.rep r hr with h | h
    · exact v.rep r h
    · exact h.1
  · intro hst r hr hf hd
    rcases ef.rep r hr with h | h
    · exact v.dn hst r h hf hd
    · have := h.2.2.2 hst hd
      rw [h.2.1, this] at hf
      cases hf
  · intro hd r hr
    rcases ef.rep r hr with h | h
    · exact v.dr hd r h
    · rw [h.2.1]
      exact v.sd hd h.2.2.1
  · intro hd hw
    have := ef.sd hw
    rw [this.2]
    exact v.sd hd this.1

theorem Inv.step {e : Env} {s u : St} (v : Inv e s) {a : Act} (hs : act e s a = some u) : Inv e u := by
  unfold act at hs
  split at hs
  · cases hs
  rename_i hcp
  have hc : s.crash = false := by cases h : s.crash <;> simp_all
  have hp : s.stopped = false := by cases h : s.stopped <;> simp_all
  have g := v.g hc hp
  have hx := v.ex hc hp
  cases a with
  | io n =>
    simp only at hs
    split at hs
    · rename_i h
      simp only [Bool.and_eq_true, Bool.not_eq_true'] at h
      obtain ⟨⟨h1, h2⟩, h3⟩ := h
      cases hs
      exact ⟨fun _ _ => g.io n h1 h2 (fun b hb => (by rw [hb] at h3; cases h3)), fun _ _ => hx, v.lost, v.ref,
        v.rep, v.ok, v.dn, v.dr, v.sd⟩
    · cases hs
  | cl =>
    simp only at hs
    split at hs
    · rename_i h
      simp only [Bool.and_eq_true, Bool.not_eq_true'] at h
      cases hs
      exact ⟨fun _ _ => g.cl h.1 h.2, fun _ _ => hx, v.lost, v.ref, v.rep, v.ok, v.dn, v.dr, v.sd⟩
    · cases hs
  | core =>
    simp only at hs
    split at hs
    · rename_i h
      simp only [Bool.and_eq_true, Bool.not_eq_true'] at h
      cases hs
      refine ⟨fun _ _ => g.core h.1 h.2, fun _ _ hst => ?_, v.lost, v.ref, v.rep, v.ok, v.dn, v.dr,
        fun _ x => (by cases x)⟩
      have := hx hst
      unfold ctxEx at this
      rw [(lk_free g h.2).1] at this
      exact this
    · cases hs
  | th i c =>
    simp only at hs
    split at hs
    · cases hs
    · rename_i t ht
      obtain ⟨gu, sm⟩ := g.th_step ht hs
      refine ⟨fun _ _ => gu, fun _ _ hst => sm.ex (hx hst), fun hst => sm.lost.trans (v.lost hst), gu.ref,
        gu.rep, fun _ _ => sm.crash.trans hc, ?_, ?_, ?_⟩
      · rw [sm.rep]; exact v.dn
      · rw [sm.rep]; exact v.dr
      · rw [sm.att]; exact fun hd hw => v.sd hd (sm.op hw)
  | op c => exact v.opStep hc hp hs
  | done =>
    simp only at hs
    split at hs
    · cases hs
    · rename_i p ho
      rw [if_pos (g.out p ho).2] at hs
      cases hs
      have hl := g.lk
      rw [ho] at hl
      have u1 : (if s.lk = true then 1 else 0) ≤ 1 := by split <;> omega
      simp only [Option.isSome_some, if_true] at hl
      refine ⟨fun _ _ => ⟨g.rc, g.fz, g.cb, g.wai, g.aft, g.mdx, g.exc, ?_, g.mg, g.ati, ?_, g.atx, g.dt, g.th,
        fun q hq => (by cases hq), g.ctx, g.sw, g.ref, g.rep⟩, fun _ _ => hx, v.lost, v.ref, v.rep, v.ok, v.dn,
        v.dr, v.sd⟩
      · simp only [Option.isSome_none, Bool.false_eq_true, if_false]
        omega
      · exact fun x => ⟨(g.atm x).1, rfl, (g.atm x).2.2⟩
  | sw n mem =>
    simp only [swStart] at hs
    split at hs
    · cases hs
    rename_i h
    simp only [Bool.or_eq_true, Bool.and_eq_true, Bool.not_eq_true', not_or, not_and] at h
    have ha : e.det = false → s.att = true := by
      intro hd
      cases hx : s.att
      · exact absurd hd (h.2 hx)
      · rfl
    have hl : s.lk = false := by cases h' : s.lk <;> simp_all
    split at hs
    · rename_i hn
      cases hs
      exact v.report _ ⟨hn, rfl⟩ (fun x => (by cases x)) ha
    rename_i hn
    split at hs
    · cases hs
      exact v.report _ ⟨hn, rfl⟩ (fun x => (by cases x)) ha
    split at hs
    · cases hs
      exact v.report _ ⟨hn, rfl⟩ (fun x => (by cases x)) ha
    cases hs
    have h1 := (lk_free g hl).1
    refine v.start g hc hl (.swEx s.pol n) s.pol s.cd (g.start hl _ _ _ (fun x => (by cases x)) rfl rfl
      (fun x => (by cases x)) (fun x => (by cases x)) (fun x => (by cases x)) (fun b x => (by cases x))
      (Or.inl rfl) ?_ ⟨hn, rfl⟩) ?_ (fun hd _ => ha hd)
    · have := g.ctx
      unfold ctxOk at this
      rw [h1] at this
      exact this
    · intro hst
      have := hx hst
      unfold ctxEx at this
      rw [h1] at this
      exact this
  | attach d =>
    simp only at hs
    split at hs
    · rename_i h
      simp only [Bool.and_eq_true, Bool.not_eq_true'] at h
      cases hs
      refine v.start g hc h.2 .atInit (if d then .nop else s.pol) d (g.start h.2 _ _ _ (fun x => (by cases x)) rfl
        rfl (fun x => (by cases x)) (fun _ => h.1) (fun x => (by cases x)) (fun b x => (by cases x))
        (Or.inr h.1) trivial trivial) ?_ (fun _ x => (by cases x))
      intro hst
      have := hx hst
      unfold ctxEx at this
      rw [(lk_free g h.2).1, h.1] at this
      exact this
    · cases hs
  | load p clean d =>
    simp only at hs
    split at hs
    · rename_i h
      simp only [Bool.and_eq_true, Bool.not_eq_true'] at h
      cases hs
      refine v.start g hc h.2 (.ldInit clean) p d (g.start h.2 _ _ _ (fun x => (by cases x)) rfl
        rfl (fun x => (by cases x)) (fun _ => h.1) (fun x => (by cases x)) (fun b x => (by cases x))
        (Or.inr h.1) trivial trivial) ?_ (fun _ x => (by cases x))
      intro hst
      have := hx hst
      unfold ctxEx at this
      rw [(lk_free g h.2).1, h.1] at this
      exact this
    · cases hs
  | detach =>
    simp only at hs
    split at hs
    · rename_i h
      simp only [Bool.and_eq_true, Bool.not_eq_true'] at h
      cases hs
      have h1 := (lk_free g h.2).1
      refine v.start g hc h.2 (.dtWait false) s.pol s.cd (g.start h.2 _ _ _ (fun x => (by cases x)) rfl
        rfl (fun x => (by cases x)) (fun x => (by cases x)) (fun _ => h.1) (fun b x => (by cases x))
        (Or.inl rfl) ?_ trivial) ?_ (fun _ x => (by cases x))
      · have := g.ctx
        unfold ctxOk at this
        rw [h1] at this
        exact this
      · intro hst
        have := hx hst
        unfold ctxEx at this
        rw [h1] at this
        exact this
    · cases hs
  | stop =>
    simp only at hs
    split at hs
    · cases hs
    rename_i hl
    have hl : s.lk = false := by cases h' : s.lk <;> simp_all
    have h1 := (lk_free g hl).1
    split at hs
    · rename_i ha
      cases hs
      refine v.start g hc hl (.dtWait true) s.pol s.cd (g.start hl _ _ _ (fun x => (by cases x)) rfl
        rfl (fun x => (by cases x)) (fun x => (by cases x)) (fun _ => ha) (fun b x => (by cases x))
        (Or.inl rfl) ?_ trivial) ?_ (fun _ x => (by cases x))
      · have := g.ctx
        unfold ctxOk at this
        rw [h1] at this
        exact this
      · intro hst
        have := hx hst
        unfold ctxEx at this
        rw [h1] at this
        exact this
    · rename_i ha
      cases hs
      refine ⟨fun _ x => (by cases x), fun _ x => (by cases x), fun hst => ?_, v.ref, v.rep, v.ok, v.dn, v.dr,
        v.sd⟩
      have := hx hst
      unfold ctxEx at this
      rw [h1] at this
      simp only [ha] at this
      simp only [this, v.lost hst]
      rfl

theorem inv_reach {e : Env} {s : St} (h : Reach (· = init) (Step e) s) : Inv e s :=
  Reach.inv (P := Inv e) (fun s (hs : s = init) => hs ▸ inv_init e) (fun _ _ hi hs => hs.elim (fun _ x => hi.step x)) s h

end Verif.PolicySwitch
