import Verif.Model.PolicySwitch
import Verif.Lemma.Common

/-! Invariant of the cleaning policy and its replacement (C56). -/

namespace Verif.PolicySwitch

/-- The thread holds a reference of the counter. -/
def hold (t : Th) : Bool :=
  match t.pc with
  | .inc | .back | .use _ | .run _ | .fin => true
  | _ => false

/-- The thread is a run of the cleaner that holds the management lock. -/
def clLk (t : Th) : Bool :=
  t.kind == .cl && (match t.pc with
    | .lk | .rd | .inc | .back | .use _ => true
    | _ => false)

/-- The thread belongs to an operation on a core. -/
def mgL (t : Th) : Bool := t.kind == .mg && t.pc != .gone

/-- The thread is an I/O thread that lives. -/
def ioL (t : Th) : Bool := t.kind == .io && t.pc != .gone

/-- The thread is a run of the cleaner that lives. -/
def clL (t : Th) : Bool := t.kind == .cl && t.pc != .gone

/-- The operation has frozen the counter. -/
def Op.frz : Op → Bool
  | .swReg _ _ | .swRegD _ _ | .swWait _ _ | .swDeinit _ _ | .swInit _ _ | .swPop _ _ | .swFin _ _ _ => true
  | _ => false

/-- The operation has exclusive access to the metadata. -/
def Op.exc : Op → Bool
  | .swFz _ _ => true
  | o => o.frz

/-- The callback is registered. -/
def Op.reg : Op → Bool
  | .swRegD _ _ | .swWait _ _ => true
  | _ => false

/-- The callback has run. -/
def Op.aft : Op → Bool
  | .swDeinit _ _ | .swInit _ _ | .swPop _ _ | .swFin _ _ _ => true
  | _ => false

/-- The registration still has its reference. -/
def Op.own : Op → Bool
  | .swRegD _ _ => true
  | _ => false

/-- The operation waits for the counter. -/
def Op.wai : Op → Bool
  | .swWait _ _ => true
  | _ => false

/-- The operation attaches a cache device. -/
def Op.att : Op → Bool
  | .atInit | .atPop | .atLate | .ldInit _ | .ldPop | .ldLate => true
  | _ => false

/-- The operation detaches the cache device. -/
def Op.dta : Op → Bool
  | .dtWait _ | .dtDeinit _ => true
  | _ => false

/-- The operation switches the policy. -/
def Op.swi : Op → Bool
  | .swEx _ _ => true
  | o => o.exc

/-- The context of a policy. -/
def own (p : Pol) : Option Pol := if p = .nop then none else some p

/-- What is known of the context at each point. -/
def ctxOk (s : St) : Prop :=
  match s.op with
  | .swInit _ _ | .atInit | .ldInit _ => True
  | .swPop _ n => fits s.ctx n = true
  | .swFin _ _ _ | .atPop | .atLate | .ldPop | .ldLate => fits s.ctx s.pol = true
  | _ => s.att = true → fits s.ctx s.pol = true

/-- What is known of the context when nothing fails half-way. -/
def ctxEx (s : St) : Prop :=
  match s.op with
  | .atInit | .ldInit _ => s.ctx = none
  | .swInit _ _ => s.ctx = none ∧ (s.att = false → s.pol = .nop)
  | .swPop _ n => s.ctx = own n ∧ (s.att = false → s.pol = .nop)
  | .swFin _ _ err => s.ctx = own s.pol ∧ (s.att = false → s.pol = .nop ∧ err = true)
  | .atPop | .atLate | .ldPop | .ldLate => s.ctx = own s.pol
  | _ => s.ctx = if s.att then own s.pol else none

/-- What is known of the policies of a switch. -/
def swOk (s : St) : Prop :=
  match s.op with
  | .swEx o n | .swFz o n | .swReg o n | .swRegD o n | .swWait o n | .swDeinit o n | .swInit o n
  | .swPop o n => n ≠ o ∧ s.pol = o
  | .swFin o n err => n ≠ o ∧ s.pol = if err then .nop else n
  | _ => True

/-- What is known of a report. -/
def repOk (r : Rep) : Prop :=
  match r.out with
  | .same => r.new = r.old ∧ r.now = r.old
  | .disabled | .nomem => r.new ≠ r.old ∧ r.now = r.old
  | .done => r.new ≠ r.old ∧ r.now = r.new
  | .failed => r.new ≠ r.old ∧ r.now = .nop

/-- What is known of a thread. -/
def thOk (pol : Pol) (ctx : Option Pol) (t : Th) : Prop :=
  match t.pc with
  | .use p => p = pol ∧ fits ctx p = true
  | .run p => p = pol ∧ fits ctx p = true ∧ t.kind = .cl
  | .back => False
  | .lk => t.kind ≠ .io → t.left = 1
  | _ => True

/-- The invariant of counters and locks. -/
structure G (s : St) : Prop where
  rc : s.rc = s.ths.countP hold + (if s.op.own then 1 else 0)
  fz : s.fz = if s.op.frz then 1 else 0
  cb : s.cb = s.op.reg
  wai : s.op.wai = true → s.rc ≠ 0
  aft : s.op.aft = true → s.rc = 0
  mdx : s.mdx = s.op.exc
  exc : s.op.exc = true → s.ths.countP ioL = 0
  lk : s.ths.countP clLk + (if s.out.isSome then 1 else 0) + (if s.op = .idle then 0 else 1) =
    if s.lk then 1 else 0
  mg : s.ths.countP mgL = if s.op = .hook then 1 else 0
  ati : s.att = false → s.ths.countP ioL = 0 ∧ s.ths.countP clL = 0
  atm : s.att = false → s.op ≠ .hook ∧ s.out = none ∧ s.op.dta = false
  atx : s.op.att = true → s.att = false
  dt : ∀ b, s.op = .dtDeinit b → s.ths.countP ioL = 0
  th : ∀ t ∈ s.ths, thOk s.pol s.ctx t
  out : ∀ p, s.out = some p → p = s.pol ∧ fits s.ctx p = true
  ctx : ctxOk s
  sw : swOk s
  ref : s.refused = false
  rep : ∀ r ∈ s.rep, repOk r

/-- No failure half-way. -/
def strict (e : Env) : Bool := !e.pop && !e.late

/-- The invariant. -/
structure Inv (e : Env) (s : St) : Prop where
  g : s.crash = false → s.stopped = false → G s
  ex : s.crash = false → s.stopped = false → strict e = true → ctxEx s
  lost : strict e = true → s.lost = 0
  ref : s.refused = false
  rep : ∀ r ∈ s.rep, repOk r
  ok : strict e = true → e.det = false → s.crash = false
  dn : strict e = true → ∀ r ∈ s.rep, r.att = false → r.out = .done → False
  dr : e.det = false → ∀ r ∈ s.rep, r.att = true
  sd : e.det = false → s.op.swi = true → s.att = true

theorem all_count (p q : Th → Bool) (h : ∀ t, q t = !p t) (l : List Th) (ha : l.all p = true) :
    l.countP q = 0 := by
  rw [List.countP_eq_zero]
  intro t ht
  rw [List.all_eq_true] at ha
  rw [h, ha t ht]
  decide

theorem noIo_count {s : St} (h : noIo s = true) : s.ths.countP ioL = 0 :=
  all_count _ _ (fun t => by
    simp only [ioL]
    cases t.kind <;> cases t.pc <;> rfl) _ h

theorem noCl_count {s : St} (h : noCl s = true) : s.ths.countP clL = 0 :=
  all_count _ _ (fun t => by
    simp only [clL]
    cases t.kind <;> cases t.pc <;> rfl) _ h

/-- The change of the threads seen by the counts. -/
theorem th_set {s : St} {i : Nat} {t : Th} (h : s.ths[i]? = some t) (t' : Th) (p : Th → Bool) :
    (s.ths.set i t').countP p + (if p t then 1 else 0) = s.ths.countP p + (if p t' then 1 else 0) :=
  countP_set p s.ths i t' t h

theorem th_ok {s : St} {i : Nat} {t' : Th} {pol : Pol} {ctx : Option Pol}
    (h : ∀ t ∈ s.ths, thOk pol ctx t) (h' : thOk pol ctx t') : ∀ t ∈ s.ths.set i t', thOk pol ctx t := by
  intro u hu
  rcases List.mem_or_eq_of_mem_set hu with hu | hu
  · exact h u hu
  · exact hu ▸ h'

theorem th_pos {s : St} {i : Nat} {t : Th} (h : s.ths[i]? = some t) (p : Th → Bool) (hp : p t = true) :
    0 < s.ths.countP p := countP_pos_of_get p s.ths i t h hp

/-- A thread that lives and may call the policy finds the counter not frozen. -/
theorem G.fz0 {s : St} (g : G s) {i : Nat} {t : Th} (h : s.ths[i]? = some t)
    (hc : ioL t = true ∨ clLk t = true ∨ mgL t = true) : s.fz = 0 := by
  have hf := g.fz
  have h1 := th_pos h ioL
  have h2 := th_pos h clLk
  have h3 := th_pos h mgL
  have e := g.exc
  have l := g.lk
  have m := g.mg
  rcases hc with hc | hc | hc
  · have := h1 hc
    cases ho : s.op <;> rw [ho] at hf e <;> simp only [Op.frz, Op.exc] at hf e <;> first | exact hf | (have := e trivial; omega)
  · have := h2 hc
    have : s.op = .idle := by
      apply Classical.byContradiction
      intro hn
      rw [if_neg hn] at l
      have : (if s.lk = true then 1 else 0) ≤ 1 := by split <;> omega
      omega
    rw [hf, this]; rfl
  · have := h3 hc
    have : s.op = .hook := by
      apply Classical.byContradiction
      intro hn
      rw [if_neg hn] at m
      omega
    rw [hf, this]; rfl

end Verif.PolicySwitch
