import Verif.Lemma.PolicySwitchStep

/-! C56: changing the cleaning policy of a running cache.

The specification is in the terms of a caller: which policy a call into the policy works with and what the
context it finds is, what the completion of a change reports, what is left in memory. -/

namespace Verif.PolicySwitch

/-- Reachable: any history of I/O, cleaner runs, core operations, changes of policy, attach, load, detach and
stop, from a cache that was just started. -/
abbrev Reachable (e : Env) (s : St) : Prop := Reach (· = init) (Step e) s

/-- The library has not crashed and the cache has not been stopped. -/
def Alive (s : St) : Prop := s.crash = false ∧ s.stopped = false

/-- Somebody works inside policy `p`: a thread inside a call, or an order of the cleaner not yet complete. -/
def Inside (s : St) (p : Pol) : Prop :=
  (∃ t ∈ s.ths, t.pc = .use p ∨ t.pc = .run p) ∨ s.out = some p

/-- The context is that of policy `p`: NOP needs none. -/
def Right (ctx : Option Pol) (p : Pol) : Prop := p = .nop ∨ ctx = some p

/-- The context is exactly what policy `p` has: nothing for NOP. -/
def Exact (ctx : Option Pol) (p : Pol) : Prop :=
  (p = .nop → ctx = none) ∧ (p ≠ .nop → ctx = some p)

/-- The change of policy is between freeing the old context and letting calls in again. -/
def Replacing (s : St) : Prop :=
  (∃ o n, s.op = .swDeinit o n) ∨ (∃ o n, s.op = .swInit o n) ∨ (∃ o n, s.op = .swPop o n) ∨
  ∃ o n b, s.op = .swFin o n b

/-- What a report of a change from `old` to `new` says, against the policy the cache then has. -/
def Truthful (r : Rep) : Prop :=
  (r.out = .same → r.new = r.old ∧ r.now = r.old) ∧
  (r.out = .disabled → r.now = r.old) ∧ (r.out = .nomem → r.now = r.old) ∧
  (r.out = .done → r.now = r.new) ∧ (r.out = .failed → r.now = .nop)

/-- Nothing is under way. -/
def Quiet (s : St) : Prop := s.op = .idle ∧ s.out = none ∧ ∀ t ∈ s.ths, t.pc = .gone

/-- A step of something under way, as opposed to something new. -/
def Old (a : Act) : Prop := (∃ i c, a = .th i c) ∨ (∃ c, a = .op c) ∨ a = .done

theorem right_of_fits {ctx : Option Pol} {p : Pol} (h : fits ctx p = true) : Right ctx p := by
  unfold fits at h
  rw [Bool.or_eq_true] at h
  rcases h with h | h
  · exact Or.inl (by simpa using h)
  · exact Or.inr (by simpa using h)

theorem exact_own {p : Pol} : Exact (own p) p := by
  cases p
  · exact ⟨fun _ => rfl, fun h => absurd rfl h⟩
  · exact ⟨fun h => (by cases h), fun _ => rfl⟩
  · exact ⟨fun h => (by cases h), fun _ => rfl⟩

theorem G.inside {s : St} (g : G s) {p : Pol} (h : Inside s p) : p = s.pol ∧ Right s.ctx p := by
  rcases h with ⟨t, ht, hp⟩ | h
  · have := g.th t ht
    unfold thOk at this
    rcases hp with hp | hp <;> rw [hp] at this
    · exact ⟨this.1, right_of_fits this.2⟩
    · exact ⟨this.1, right_of_fits this.2.1⟩
  · exact ⟨(g.out p h).1, right_of_fits (g.out p h).2⟩

/-- **Whoever works inside a policy works inside the current one, with its context in place**, whatever
fails and whatever the callers do. -/
theorem inside_safe {e : Env} {s : St} (h : Reachable e s) (ha : Alive s) {p : Pol} (hi : Inside s p) :
    p = s.pol ∧ Right s.ctx p :=
  ((inv_reach h).g ha.1 ha.2).inside hi

/-- **While the policy is being replaced nobody is inside it**, and no call is counted. -/
theorem replacing_alone {e : Env} {s : St} (h : Reachable e s) (ha : Alive s) (hr : Replacing s) :
    (∀ p, ¬ Inside s p) ∧ s.rc = 0 := by
  have g := (inv_reach h).g ha.1 ha.2
  have haft : s.op.aft = true := by
    rcases hr with ⟨o, n, x⟩ | ⟨o, n, x⟩ | ⟨o, n, x⟩ | ⟨o, n, b, x⟩ <;> rw [x] <;> rfl
  have hne : s.op ≠ .idle := by intro x; rw [x] at haft; cases haft
  have hrc := g.aft haft
  have hc := g.rc
  rw [hrc] at hc
  have hz : s.ths.countP hold = 0 := by omega
  rw [List.countP_eq_zero] at hz
  refine ⟨fun p hi => ?_, hrc⟩
  rcases hi with ⟨t, ht, hp⟩ | hi
  · have := hz t ht
    rcases hp with hp | hp <;> simp [hold, hp] at this
  · have hl := g.lk
    rw [hi, if_neg hne] at hl
    have u1 : (if s.lk = true then 1 else 0) ≤ 1 := by split <;> omega
    simp only [Option.isSome_some, if_true] at hl
    omega

/-- **A call never crashes**: a step of a thread, or the completion of the cleaner's order, from a reachable
state leads to a state that has not crashed. -/
theorem call_safe {e : Env} {s u : St} (h : Reachable e s) {a : Act} (hs : act e s a = some u)
    (ho : ∀ c, a ≠ .op c) : u.crash = false := by
  have v := inv_reach h
  unfold act at hs
  split at hs
  · cases hs
  rename_i hcp
  have hc : s.crash = false := by cases h : s.crash <;> simp_all
  have hp : s.stopped = false := by cases h : s.stopped <;> simp_all
  have g := v.g hc hp
  cases a with
  | op c => exact absurd rfl (ho c)
  | th i c =>
    simp only at hs
    split at hs
    · cases hs
    · rename_i t ht
      exact (g.th_step ht hs).2.crash.trans hc
  | done =>
    simp only at hs
    split at hs
    · cases hs
    · rename_i p ho
      rw [if_pos (g.out p ho).2] at hs
      cases hs
      exact hc
  | sw n mem =>
    simp only [swStart] at hs
    repeat' split at hs
    all_goals first | (cases hs; done) | (cases hs; exact hc)
  | _ =>
    simp only at hs
    repeat' split at hs
    all_goals first | (cases hs; done) | (cases hs; exact hc)

/-- **Where the library can crash**: only in changing the policy without a cache device, or in initialising
ACP over a context that an earlier failure left behind. -/
theorem crash_where {e : Env} {s u : St} (h : Reachable e s) {a : Act} (hs : act e s a = some u)
    (hu : u.crash = true) : (s.att = false ∧ Replacing s) ∨ (s.ctx ≠ none ∧
      ((∃ o, s.op = .swInit o .acp) ∨ (s.pol = .acp ∧ (s.op = .atInit ∨ ∃ b, s.op = .ldInit b)))) := by
  have hop : ∃ c, a = .op c := by
    apply Classical.byContradiction
    intro hn
    have := call_safe h hs (fun c x => hn ⟨c, x⟩)
    rw [this] at hu
    cases hu
  obtain ⟨c, rfl⟩ := hop
  have v := inv_reach h
  unfold act at hs
  split at hs
  · cases hs
  rename_i hcp
  have hc : s.crash = false := by cases h : s.crash <;> simp_all
  have hp : s.stopped = false := by cases h : s.stopped <;> simp_all
  have g := v.g hc hp
  have g1 := g.rc
  have g2 := g.fz
  have g3 := g.cb
  have g11 := g.atm
  have gc := g.ctx
  unfold ctxOk at gc
  have dei : ∀ {q : St}, q.crash = false → fits q.ctx q.pol = true → (deinit q).crash = false := by
    intro q h1 h2
    unfold deinit
    split
    · exact h1
    · rename_i hn
      rw [if_pos ((right_of_fits h2).resolve_left hn)]
      exact h1
  have ini : ∀ {q : St} {d : Bool} {p : Pol}, q.crash = false → (initPol q d p).crash = true →
      (d = false ∧ p = .alru) ∨ (q.ctx ≠ none ∧ p = .acp) := by
    intro q d p h1 h2
    cases p
    · have h2 : q.crash = true := h2
      rw [h1] at h2; cases h2
    · cases d
      · exact Or.inl ⟨rfl, rfl⟩
      · have h2 : q.crash = true := h2
        rw [h1] at h2; cases h2
    · unfold initPol at h2
      cases hq : q.ctx with
      | none =>
        rw [hq] at h2
        have h2 : q.crash = true := h2
        rw [h1] at h2; cases h2
      | some x => exact Or.inr ⟨fun x => (by cases x), rfl⟩
  have dst : ∀ {x : Bool}, x = false → x = true → False := fun a b => by rw [a] at b; cases b
  cases ho : s.op <;> rw [ho] at g1 g2 g3 g11 gc <;> simp only [opStep, ho] at hs
  case swReg o n =>
    simp only [Op.frz, if_true, Op.reg] at g2 g3
    rw [g2, g3] at hs
    cases hs
    exact (dst hc hu).elim
  case swRegD o n =>
    cases hs
    have hr : s.rc ≠ 0 := by simp only [Op.own, if_true] at g1; omega
    unfold decr at hu
    rw [if_neg hr] at hu
    split at hu
    · exact (dst hc hu).elim
    · exact (dst hc hu).elim
  case swDeinit o n =>
    cases hs
    cases ha : s.att
    · exact Or.inl ⟨rfl, Or.inl ⟨o, n, ho⟩⟩
    · exact (dst (dei (q := { s with op := .swInit o n }) hc (gc ha)) hu).elim
  case swInit o n =>
    split at hs
    · cases hs
      rcases ini (q := { s with op := .swPop o n }) hc hu with hh | hh
      · exact Or.inl ⟨hh.1, Or.inr (Or.inl ⟨o, n, ho⟩)⟩
      · exact Or.inr ⟨hh.1, Or.inl ⟨o, by rw [hh.2]⟩⟩
    · cases hs
      exact (dst hc hu).elim
  case swPop o n =>
    cases ha : s.att
    · exact Or.inl ⟨rfl, Or.inr (Or.inr (Or.inl ⟨o, n, ho⟩))⟩
    · rw [ha] at hs
      repeat' split at hs
      all_goals first | contradiction | (cases hs; done) | (cases hs; exact (dst hc hu).elim)
  case swFin o n err =>
    simp only [Op.frz, if_true] at g2
    rw [g2] at hs
    cases hs
    exact (dst hc hu).elim
  case atInit =>
    split at hs
    · cases hs
      rcases ini (q := { s with op := .atPop, rc := 0, fz := 0, cb := false }) hc hu with hh | hh
      · cases hh.1
      · exact Or.inr ⟨hh.1, Or.inr ⟨hh.2, Or.inl rfl⟩⟩
    · cases hs
      exact (dst hc hu).elim
  case ldInit b =>
    split at hs
    · cases hs
      rcases ini (q := { s with op := if b then .ldLate else .ldPop, rc := 0, fz := 0, cb := false }) hc hu
        with hh | hh
      · cases hh.1
      · exact Or.inr ⟨hh.1, Or.inr ⟨hh.2, Or.inr ⟨b, rfl⟩⟩⟩
    · cases hs
      exact (dst hc hu).elim
  case atLate =>
    split at hs
    · cases hs
      exact (dst hc hu).elim
    · cases hs
      exact (dst (dei (q := { s with op := .idle, lk := false }) hc gc) hu).elim
  case dtDeinit b =>
    split at hs
    · cases hs
      have ha : s.att = true := by
        cases ha : s.att
        · exact absurd (g11 ha).2.2 (by simp [Op.dta])
        · rfl
      exact (dst (dei (q := { s with op := .idle, lk := false, att := false, stopped := b }) hc (gc ha)) hu).elim
    · cases hs
  all_goals (repeat' split at hs)
  all_goals first
    | (cases hs; done)
    | (cases hs; exact (dst hc hu).elim)

/-- **No call is skipped**: although a call that finds the counter frozen is dropped without a word, no call
ever finds it so. -/
theorem never_skipped {e : Env} {s : St} (h : Reachable e s) : s.refused = false := (inv_reach h).ref

/-- **Reports are true.** -/
theorem reports_true {e : Env} {s : St} (h : Reachable e s) {r : Rep} (hr : r ∈ s.rep) : Truthful r := by
  have := (inv_reach h).rep r hr
  unfold repOk at this
  refine ⟨fun x => ?_, fun x => ?_, fun x => ?_, fun x => ?_, fun x => ?_⟩ <;> rw [x] at this
  · exact this
  · exact this.2
  · exact this.2
  · exact this.2
  · exact this.2

/-- **If populating a policy never fails, loading does not fail late, and the policy is changed only with a
cache device attached, nothing crashes and no context is lost.** -/
theorem strict_safe_partial {e : Env} {s : St} (h : Reachable e s) (h1 : e.pop = false) (h2 : e.late = false)
    (h3 : e.det = false) : s.crash = false ∧ s.lost = 0 := by
  have hst : strict e = true := by simp [strict, h1, h2]
  exact ⟨(inv_reach h).ok hst h3, (inv_reach h).lost hst⟩

/-- **Between operations the context is exactly that of the policy**, and there is none without a cache
device, if populating never fails and loading does not fail late. -/
theorem strict_context_partial {e : Env} {s : St} (h : Reachable e s) (ha : Alive s) (h1 : e.pop = false)
    (h2 : e.late = false) (hi : s.op = .idle) :
    (s.att = true → Exact s.ctx s.pol) ∧ (s.att = false → s.ctx = none) := by
  have hst : strict e = true := by simp [strict, h1, h2]
  have := (inv_reach h).ex ha.1 ha.2 hst
  unfold ctxEx at this
  rw [hi] at this
  refine ⟨fun hx => ?_, fun hx => ?_⟩ <;> rw [hx] at this
  · have this : s.ctx = own s.pol := this
    rw [this]
    exact exact_own
  · exact this

/-- **Between operations with a cache device attached the policy has its context**, in all cases. -/
theorem attached_context {e : Env} {s : St} (h : Reachable e s) (ha : Alive s) (hi : s.op = .idle)
    (hx : s.att = true) : Right s.ctx s.pol := by
  have := ((inv_reach h).g ha.1 ha.2).ctx
  unfold ctxOk at this
  rw [hi] at this
  exact right_of_fits (this hx)

/-- **Without a cache device a change of policy never reports success** (given the same): it crashes, or it
fails for lack of memory. -/
theorem detached_never_done {e : Env} {s : St} (h : Reachable e s) (h1 : e.pop = false) (h2 : e.late = false)
    {r : Rep} (hr : r ∈ s.rep) (ha : r.att = false) : r.out ≠ .done :=
  fun hd => (inv_reach h).dn (by simp [strict, h1, h2]) r hr ha hd

/-! ## Progress -/

/-- What is left of a thread. -/
def wTh (t : Th) : Nat :=
  match t.pc with
  | .lk => 10 * t.left + 1
  | .rd => 10 * t.left + 9
  | .inc => 10 * t.left + 8
  | .back => 10 * t.left + 7
  | .use _ => 10 * t.left + 7
  | .run _ => 10 * t.left + 4
  | .fin => 10 * t.left + 3
  | .gone => 0

/-- What is left of an operation. -/
def wOp : Op → Nat
  | .idle => 0
  | .swEx _ _ => 9
  | .swFz _ _ => 8
  | .swReg _ _ => 7
  | .swRegD _ _ => 6
  | .swWait _ _ => 5
  | .swDeinit _ _ => 4
  | .swInit _ _ => 3
  | .swPop _ _ => 2
  | .swFin _ _ _ => 1
  | .hook => 1
  | .atInit => 3
  | .atPop => 2
  | .atLate => 1
  | .ldInit _ => 3
  | .ldPop => 2
  | .ldLate => 1
  | .dtWait _ => 2
  | .dtDeinit _ => 1

/-- What is left of the cleaner's order. -/
def wOut : Option Pol → Nat
  | none => 0
  | some _ => 1

/-- What is left of everything under way. -/
def work (s : St) : Nat := (s.ths.map wTh).sum + wOp s.op + wOut s.out

theorem wOp_idle : wOp .idle = 0 := rfl

theorem wOut_some (p : Pol) : wOut (some p) = 1 := rfl

theorem sum_set (l : List Th) (i : Nat) (t t' : Th) (h : l[i]? = some t) :
    ((l.set i t').map wTh).sum + wTh t = (l.map wTh).sum + wTh t' := by
  induction l generalizing i with
  | nil => cases h
  | cons a l ih =>
    cases i with
    | zero =>
      simp only [List.getElem?_cons_zero, Option.some.injEq] at h
      subst h
      simp only [List.set_cons_zero, List.map_cons, List.sum_cons]
      omega
    | succ i =>
      simp only [List.getElem?_cons_succ] at h
      have := ih i h
      simp only [List.set_cons_succ, List.map_cons, List.sum_cons]
      omega

theorem decr_work (s : St) : (decr s).ths = s.ths ∧ (decr s).out = s.out ∧ wOp (decr s).op ≤ wOp s.op := by
  unfold decr
  split
  · exact ⟨rfl, rfl, Nat.le_refl _⟩
  · split
    · refine ⟨rfl, rfl, ?_⟩
      cases s.op <;> simp [wOp]
    · exact ⟨rfl, rfl, Nat.le_refl _⟩

theorem deinit_work (s : St) : work (deinit s) = work s := by
  unfold deinit
  split
  · rfl
  · split <;> rfl

theorem initPol_work (s : St) (d : Bool) (p : Pol) : work (initPol s d p) = work s := by
  cases p
  · rfl
  · cases d <;> rfl
  · unfold initPol
    cases s.ctx.isSome <;> rfl

theorem th_work {s u : St} {i : Nat} {t : Th} (h : s.ths[i]? = some t) {c : Bool}
    (hs : thStep s i t c = some u) (hu : u.crash = false) :
    work u < work s := by
  have b := fun t' => sum_set s.ths i t t' h
  have hd := decr_work s
  unfold work
  cases hpc : t.pc with
  | gone => simp only [thStep, hpc] at hs; cases hs
  | lk =>
    cases hl : t.left with
    | zero =>
      simp only [thStep, hpc, hl, Option.some.injEq] at hs
      subst hs
      have := b { t with pc := .gone }
      simp only [wTh, hpc, hl, upd] at this ⊢
      omega
    | succ n =>
      simp only [thStep, hpc, hl] at hs
      split at hs
      · cases hs
        have := b { t with left := n, pc := .rd }
        simp only [wTh, hpc, hl, upd] at this ⊢
        omega
      · simp only [refuse, Option.some.injEq] at hs
        split at hs <;> subst hs <;> rename_i hk
        · have := b { kind := t.kind, left := n, pc := .lk }
          simp only [wTh, hpc, hl, upd] at this ⊢
          omega
        · have := b { kind := t.kind, left := n, pc := .gone }
          simp only [wTh, hpc, hl, upd] at this ⊢
          omega
        · have := b { kind := t.kind, left := n, pc := .gone }
          simp only [wTh, hpc, hl, upd, wOp_idle] at this ⊢
          omega
  | rd =>
    simp only [thStep, hpc, Option.some.injEq] at hs
    subst hs
    have := b { t with pc := .inc }
    simp only [wTh, hpc, upd] at this ⊢
    omega
  | inc =>
    simp only [thStep, hpc] at hs
    split at hs <;> cases hs
    · have := b { t with pc := .use s.pol }
      simp only [wTh, hpc, upd] at this ⊢
      omega
    · have := b { t with pc := .back }
      simp only [wTh, hpc, upd] at this ⊢
      omega
  | back =>
    simp only [thStep, hpc, refuse, Option.some.injEq] at hs
    split at hs <;> subst hs <;> simp only [upd, hd.1, hd.2.1]
    · have := b { t with pc := .lk }
      simp only [wTh, hpc] at this ⊢
      omega
    · have := b { t with pc := .gone }
      simp only [wTh, hpc] at this ⊢
      omega
    · have := b { t with pc := .gone }
      simp only [wTh, hpc, wOp_idle] at this ⊢
      omega
  | use p =>
    simp only [thStep, hpc, call, Option.some.injEq] at hs
    split at hs
    · split at hs
      · split at hs <;> subst hs
        · have := b { t with pc := .run p }
          simp only [wTh, hpc, upd, wOut_some] at this ⊢
          omega
        · have := b { t with pc := .fin }
          simp only [wTh, hpc, upd] at this ⊢
          omega
      · subst hs
        have := b { t with pc := .fin }
        simp only [wTh, hpc, upd] at this ⊢
        omega
    · subst hs
      cases hu
  | run p =>
    simp only [thStep, hpc, Option.some.injEq] at hs
    split at hs
    · subst hs
      have := b { t with pc := .fin }
      simp only [wTh, hpc, upd] at this ⊢
      omega
    · subst hs
      cases hu
  | fin =>
    simp only [thStep, hpc, ret, Option.some.injEq] at hs
    split at hs <;> subst hs <;> simp only [upd, hd.1, hd.2.1]
    · have := b { t with pc := .lk }
      simp only [wTh, hpc] at this ⊢
      omega
    · have := b { t with pc := .gone }
      simp only [wTh, hpc] at this ⊢
      omega
    · have := b { t with pc := .gone }
      simp only [wTh, hpc, wOp_idle] at this ⊢
      omega

theorem op_work {e : Env} {s u : St} {c : Bool} (hs : opStep e s c = some u) (hu : u.crash = false) :
    work u < work s := by
  cases ho : s.op <;> simp only [opStep, ho] at hs
  case swRegD o n =>
    cases hs
    have hd := decr_work { s with op := .swWait o n }
    simp only [wOp] at hd
    unfold work
    rw [hd.1, hd.2.1, ho]
    simp only [wOp]
    omega
  case swDeinit o n =>
    cases hs
    rw [deinit_work]
    simp [work, ho, wOp]
  case swInit o n =>
    split at hs
    · cases hs
      rw [initPol_work]
      simp [work, ho, wOp]
    · cases hs
      simp [work, ho, wOp]
  case atInit =>
    split at hs
    · cases hs
      rw [initPol_work]
      simp [work, ho, wOp]
    · cases hs
      simp [work, ho, wOp]
  case ldInit b =>
    split at hs
    · cases hs
      rw [initPol_work]
      cases b <;> simp [work, ho, wOp]
    · cases hs
      simp [work, ho, wOp]
  case atLate =>
    split at hs
    · cases hs
      simp [work, ho, wOp]
    · cases hs
      rw [deinit_work]
      simp [work, ho, wOp]
  case dtDeinit b =>
    split at hs
    · cases hs
      rw [deinit_work]
      simp [work, ho, wOp]
    · cases hs
  all_goals (repeat' split at hs)
  all_goals first
    | (cases hs; done)
    | (cases hs; cases hu; done)
    | (cases hs; simp [work, ho, wOp]; done)

/-- **Everything under way comes to an end**: each of its steps leaves less to do. -/
theorem old_steps_end {e : Env} {s u : St} {a : Act} (ho : Old a) (hs : act e s a = some u)
    (hu : u.crash = false) : work u < work s := by
  unfold act at hs
  split at hs
  · cases hs
  rcases ho with ⟨i, c, rfl⟩ | ⟨c, rfl⟩ | rfl
  · simp only at hs
    split at hs
    · cases hs
    · rename_i t ht
      exact th_work ht hs hu
  · exact op_work hs hu
  · simp only at hs
    split at hs
    · cases hs
    · rename_i p hp
      split at hs
      · cases hs
        simp [work, hp, wOut]
      · cases hs
        cases hu

/-- **Nothing gets stuck**: while anything is under way, some step of it is possible; in particular a change
of policy waits only for calls that can go on. -/
theorem not_stuck {e : Env} {s : St} (h : Reachable e s) (ha : Alive s) (hq : ¬ Quiet s) :
    ∃ a u, Old a ∧ act e s a = some u := by
  have g := (inv_reach h).g ha.1 ha.2
  have hcp : ¬ (s.crash || s.stopped) = true := by simp [ha.1, ha.2]
  by_cases hth : ∃ t ∈ s.ths, t.pc ≠ .gone
  · obtain ⟨t, ht, hp⟩ := hth
    obtain ⟨i, hi⟩ := List.mem_iff_getElem?.mp ht
    have : ∃ u, thStep s i t true = some u := by
      cases hpc : t.pc with
      | gone => exact absurd hpc hp
      | lk =>
        cases hl : t.left with
        | zero => simp [thStep, hpc, hl]
        | succ n =>
          simp only [thStep, hpc, hl]
          split <;> exact ⟨_, rfl⟩
      | inc =>
        simp only [thStep, hpc]
        split <;> exact ⟨_, rfl⟩
      | _ => simp [thStep, hpc]
    obtain ⟨u, hu⟩ := this
    refine ⟨.th i true, u, Or.inl ⟨i, true, rfl⟩, ?_⟩
    unfold act
    rw [if_neg hcp]
    simp only [hi, hu]
  have hall : ∀ t ∈ s.ths, t.pc = .gone := fun t ht =>
    Classical.byContradiction (fun hn => hth ⟨t, ht, hn⟩)
  cases hout : s.out with
  | some p =>
    refine ⟨.done, if fits s.ctx p then { s with out := none, lk := false } else { s with crash := true },
      Or.inr (Or.inr rfl), ?_⟩
    unfold act
    rw [if_neg hcp]
    simp only [hout]
  | none =>
    have hne : s.op ≠ .idle := fun x => hq ⟨x, hout, hall⟩
    have hio : noIo s = true := by
      unfold noIo
      rw [List.all_eq_true]
      intro t ht
      rw [hall t ht]
      simp
    have hcl : noCl s = true := by
      unfold noCl
      rw [List.all_eq_true]
      intro t ht
      rw [hall t ht]
      simp
    have hh : s.ths.countP hold = 0 := by
      rw [List.countP_eq_zero]
      intro t ht
      simp [hold, hall t ht]
    have hm : s.ths.countP mgL = 0 := by
      rw [List.countP_eq_zero]
      intro t ht
      simp [mgL, hall t ht]
    have : ∃ u, opStep e s true = some u := by
      have gm := g.mg
      have gr := g.rc
      have gw := g.wai
      cases ho : s.op <;> rw [ho] at gm gr gw <;> simp only [opStep, ho, hio, hcl]
      case idle => exact absurd ho hne
      case hook => rw [hm] at gm; simp at gm
      case swWait o n =>
        rw [hh] at gr
        exact absurd gr (gw rfl)
      all_goals (repeat' split)
      all_goals first
        | exact ⟨_, rfl⟩
        | contradiction
        | simp_all
    obtain ⟨u, hu⟩ := this
    refine ⟨.op true, u, Or.inr (Or.inl ⟨true, rfl⟩), ?_⟩
    unfold act
    rw [if_neg hcp]
    exact hu

/-! ## Cases meeting the hypotheses -/

theorem reach_acts {e : Env} {l : List Act} {s u : St} (h : Reachable e s) (ha : acts e s l = some u) :
    Reachable e u := by
  induction l generalizing s with
  | nil => cases ha; exact h
  | cons a l ih =>
    simp only [acts] at ha
    cases hb : act e s a with
    | none => rw [hb] at ha; cases ha
    | some t =>
      rw [hb] at ha
      exact ih (Reach.step h ⟨a, hb⟩) ha

/-- A state reached by some actions. -/
theorem reach_some {e : Env} {l : List Act} {p : St → Bool} (h : (acts e init l).any p = true) :
    ∃ s, Reachable e s ∧ p s = true := by
  cases hs : acts e init l with
  | none => rw [hs] at h; cases h
  | some s =>
    rw [hs] at h
    exact ⟨s, reach_acts (Reach.init rfl) hs, h⟩

/-- Nothing fails half-way, and the policy is changed with a cache device attached only. -/
def good : Env := ⟨false, false, false⟩

/-- Attach with ALRU, then cleaning: the order is issued and its completion is awaited; meanwhile a request
calls the policy. -/
def warm : List Act :=
  [.attach false, .op true, .op true, .op true, .cl, .th 0 true, .th 0 true, .th 0 true, .th 0 true,
   .io 2, .th 1 true, .th 1 true, .th 1 true]

/-- The whole change to ACP, after the request and the order have ended. -/
def change : List Act :=
  [.th 1 true, .th 1 true, .th 1 true, .th 1 true, .th 1 true, .th 1 true, .th 1 true, .th 1 true, .done,
   .sw .acp true, .op true, .op true, .op true, .op true, .th 0 true, .th 0 true, .op true, .op true, .op true,
   .op true]

example : ∃ s, Reachable good s ∧ Alive s ∧ Inside s .alru ∧ s.pol = .alru ∧ s.lk = true := by
  obtain ⟨s, h, hp⟩ := reach_some (e := good) (l := warm)
    (p := fun s => !s.crash && !s.stopped && s.out == some .alru && s.pol == .alru && s.lk) (by decide +kernel)
  simp only [Bool.and_eq_true, Bool.not_eq_true', beq_iff_eq] at hp
  exact ⟨s, h, ⟨hp.1.1.1.1, hp.1.1.1.2⟩, Or.inr hp.1.1.2, hp.1.2, hp.2⟩

/-- The change is reached while the cleaner's run has not yet dropped its reference, and waits for it. -/
example : ∃ s, Reachable good s ∧ Alive s ∧ ¬ Quiet s ∧ s.op = .swWait .alru .acp ∧ s.rc = 1 := by
  obtain ⟨s, h, hp⟩ := reach_some (e := good) (l := warm ++ change.take 14)
    (p := fun s => !s.crash && !s.stopped && s.op == .swWait .alru .acp && s.rc == 1) (by decide +kernel)
  simp only [Bool.and_eq_true, Bool.not_eq_true', beq_iff_eq] at hp
  exact ⟨s, h, ⟨hp.1.1.1, hp.1.1.2⟩, fun q => (by rw [q.1] at hp; cases hp.1.2), hp.1.2, hp.2⟩

example : ∃ s, Reachable good s ∧ Alive s ∧ Replacing s := by
  obtain ⟨s, h, hp⟩ := reach_some (e := good) (l := warm ++ change.take 17)
    (p := fun s => !s.crash && !s.stopped && s.op == .swInit .alru .acp) (by decide +kernel)
  simp only [Bool.and_eq_true, Bool.not_eq_true', beq_iff_eq] at hp
  exact ⟨s, h, ⟨hp.1.1, hp.1.2⟩, Or.inr (Or.inl ⟨_, _, hp.2⟩)⟩

example : ∃ s, Reachable good s ∧ Alive s ∧ s.op = .idle ∧ s.att = true ∧ s.ctx = some .acp ∧
    s.rep = [⟨.alru, .acp, .done, .acp, true⟩] := by
  obtain ⟨s, h, hp⟩ := reach_some (e := good) (l := warm ++ change)
    (p := fun s => !s.crash && !s.stopped && s.op == .idle && s.att && s.ctx == some .acp &&
      s.rep == [⟨.alru, .acp, .done, .acp, true⟩]) (by decide +kernel)
  simp only [Bool.and_eq_true, Bool.not_eq_true', beq_iff_eq] at hp
  exact ⟨s, h, ⟨hp.1.1.1.1.1, hp.1.1.1.1.2⟩, hp.1.1.1.2, hp.1.1.2, hp.1.2, hp.2⟩

/-! ## What goes wrong -/

/-- **Changing the policy without a cache device crashes**: `ocf_mngt_cache_cleaning_set_policy` does not ask
whether there is one. ALRU (the default) is freed although it was never initialised; from NOP, ALRU is
initialised for a device that is not there. -/
theorem detached_crashes :
    (∃ s, Reachable ⟨false, false, true⟩ s ∧ s.crash = true ∧ s.pol = .alru) ∧
    (∃ s, Reachable ⟨false, false, true⟩ s ∧ s.crash = true ∧ s.pol = .nop) := by
  refine ⟨?_, ?_⟩
  · obtain ⟨s, h, hp⟩ := reach_some (e := ⟨false, false, true⟩)
      (l := [.sw .nop true, .op true, .op true, .op true, .op true, .op true])
      (p := fun s => s.crash && s.pol == .alru) (by decide +kernel)
    simp only [Bool.and_eq_true, beq_iff_eq] at hp
    exact ⟨s, h, hp.1, hp.2⟩
  · obtain ⟨s, h, hp⟩ := reach_some (e := ⟨false, false, true⟩)
      (l := [.attach true, .op true, .op true, .op true, .detach, .op true, .op true, .attach false, .op true,
        .op true, .op false, .sw .alru true, .op true, .op true, .op true, .op true, .op true, .op true])
      (p := fun s => s.crash && s.pol == .nop) (by decide +kernel)
    simp only [Bool.and_eq_true, beq_iff_eq] at hp
    exact ⟨s, h, hp.1, hp.2⟩

/-- **A change that fails in populating the new policy leaves its context behind**, under NOP; the next
change to ACP then crashes, and the next change to ALRU loses the context. -/
theorem populate_failure_leaves :
    (∃ s, Reachable ⟨true, false, false⟩ s ∧ Alive s ∧ s.op = .idle ∧ s.att = true ∧ s.pol = .nop ∧
      s.ctx = some .acp) ∧
    (∃ s, Reachable ⟨true, false, false⟩ s ∧ s.crash = true) ∧
    (∃ s, Reachable ⟨true, false, false⟩ s ∧ Alive s ∧ s.op = .idle ∧ s.lost = 1) := by
  let l0 : List Act := [.attach false, .op true, .op true, .op true, .sw .acp true, .op true, .op true, .op true,
    .op true, .op true, .op true, .op false, .op true]
  refine ⟨?_, ?_, ?_⟩
  · obtain ⟨s, h, hp⟩ := reach_some (e := ⟨true, false, false⟩) (l := l0)
      (p := fun s => !s.crash && !s.stopped && s.op == .idle && s.att && s.pol == .nop && s.ctx == some .acp)
      (by decide +kernel)
    simp only [Bool.and_eq_true, Bool.not_eq_true', beq_iff_eq] at hp
    exact ⟨s, h, ⟨hp.1.1.1.1.1, hp.1.1.1.1.2⟩, hp.1.1.1.2, hp.1.1.2, hp.1.2, hp.2⟩
  · obtain ⟨s, h, hp⟩ := reach_some (e := ⟨true, false, false⟩)
      (l := l0 ++ [.sw .acp true, .op true, .op true, .op true, .op true, .op true, .op true])
      (p := fun s => s.crash) (by decide +kernel)
    exact ⟨s, h, hp⟩
  · obtain ⟨s, h, hp⟩ := reach_some (e := ⟨true, false, false⟩)
      (l := l0 ++ [.sw .alru true, .op true, .op true, .op true, .op true, .op true, .op true, .op true, .op true])
      (p := fun s => !s.crash && !s.stopped && s.op == .idle && s.lost == 1) (by decide +kernel)
    simp only [Bool.and_eq_true, Bool.not_eq_true', beq_iff_eq] at hp
    exact ⟨s, h, ⟨hp.1.1.1, hp.1.1.2⟩, hp.1.2, hp.2⟩

/-- **A load that fails after initialising the policy never frees it**: loading again with ACP crashes, and
stopping loses the context. -/
theorem load_failure_leaves :
    (∃ s, Reachable ⟨false, true, false⟩ s ∧ s.crash = true) ∧
    (∃ s, Reachable ⟨false, true, false⟩ s ∧ s.crash = false ∧ s.stopped = true ∧ s.lost = 1) := by
  refine ⟨?_, ?_⟩
  · obtain ⟨s, h, hp⟩ := reach_some (e := ⟨false, true, false⟩)
      (l := [.load .acp true false, .op true, .op false, .load .acp true false, .op true])
      (p := fun s => s.crash) (by decide +kernel)
    exact ⟨s, h, hp⟩
  · obtain ⟨s, h, hp⟩ := reach_some (e := ⟨false, true, false⟩)
      (l := [.load .acp true false, .op true, .op false, .stop])
      (p := fun s => !s.crash && s.stopped && s.lost == 1) (by decide +kernel)
    simp only [Bool.and_eq_true, Bool.not_eq_true', beq_iff_eq] at hp
    exact ⟨s, h, hp.1.1, hp.1.2, hp.2⟩

end Verif.PolicySwitch
