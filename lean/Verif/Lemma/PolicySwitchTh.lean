import Verif.Lemma.PolicySwitch

/-! Steps of threads (C56). -/

namespace Verif.PolicySwitch

/-- A step of thread `i` that does not change the operation. -/
theorem G.frame {s : St} (g : G s) {i : Nat} {t : Th} (h : s.ths[i]? = some t) (t' : Th)
    (rc' : Nat) (lk' : Bool) (out' : Option Pol)
    (hrc : rc' + (if hold t then 1 else 0) = s.rc + (if hold t' then 1 else 0))
    (hlk : (if clLk t' then 1 else 0) + (if out'.isSome then 1 else 0) + (if s.lk then 1 else 0) =
      (if clLk t then 1 else 0) + (if s.out.isSome then 1 else 0) + (if lk' then 1 else 0))
    (hmg : mgL t' = mgL t) (hio : ioL t' = true → ioL t = true) (hcl : clL t' = true → clL t = true)
    (hth : thOk s.pol s.ctx t')
    (hout : ∀ p, out' = some p → p = s.pol ∧ fits s.ctx p = true)
    (hat : s.att = false → out' = none)
    (hw : s.op.wai = true → rc' ≠ 0) (ha : s.op.aft = true → rc' = 0) :
    G { s with ths := s.ths.set i t', rc := rc', lk := lk', out := out' } where
  rc := by
    have a := g.rc
    have b := th_set h t' hold
    simp only
    omega
  fz := g.fz
  cb := g.cb
  wai := hw
  aft := ha
  mdx := g.mdx
  exc := by
    intro he
    have a := g.exc he
    have b := th_set h t' ioL
    have c := th_pos h ioL
    simp only
    by_cases h1 : ioL t' = true
    · have := c (hio h1); omega
    · rw [if_neg h1] at b; omega
  lk := by
    have a := g.lk
    have b := th_set h t' clLk
    simp only
    omega
  mg := by
    have a := g.mg
    have b := th_set h t' mgL
    rw [hmg] at b
    simp only
    omega
  ati := by
    intro he
    have a := g.ati he
    have b := th_set h t' ioL
    have c := th_pos h ioL
    have b2 := th_set h t' clL
    have c2 := th_pos h clL
    simp only
    constructor
    · by_cases h1 : ioL t' = true
      · have := c (hio h1); omega
      · rw [if_neg h1] at b; omega
    · by_cases h1 : clL t' = true
      · have := c2 (hcl h1); omega
      · rw [if_neg h1] at b2; omega
  atm := fun he => ⟨(g.atm he).1, hat he, (g.atm he).2.2⟩
  atx := g.atx
  dt := by
    intro x he
    have a := g.dt x he
    have b := th_set h t' ioL
    have c := th_pos h ioL
    simp only
    by_cases h1 : ioL t' = true
    · have := c (hio h1); omega
    · rw [if_neg h1] at b; omega
  th := th_ok g.th hth
  out := hout
  ctx := g.ctx
  sw := g.sw
  ref := g.ref
  rep := g.rep

theorem G.upd {s : St} (g : G s) {i : Nat} {t : Th} (h : s.ths[i]? = some t) (t' : Th)
    (hrc : hold t' = hold t) (hlk : clLk t' = clLk t)
    (hmg : mgL t' = mgL t) (hio : ioL t' = true → ioL t = true) (hcl : clL t' = true → clL t = true)
    (hth : thOk s.pol s.ctx t') : G (upd s i t') :=
  g.frame h t' s.rc s.lk s.out (by rw [hrc]) (by rw [hlk]) hmg hio hcl hth g.out
    (fun he => (g.atm he).2.1) g.wai g.aft

/-- The operation on a core ends. -/
theorem G.endMg {s : St} (g : G s) {i : Nat} {t : Th} (h : s.ths[i]? = some t) (hk : t.kind = .mg)
    (hp : t.pc ≠ .gone) (rc' : Nat) (hrc : rc' + (if hold t then 1 else 0) = s.rc) (n : Nat) :
    G { s with ths := s.ths.set i ⟨.mg, n, .gone⟩, rc := rc', lk := false, op := .idle } := by
  have hm : mgL t = true := by simp [mgL, hk, hp]
  have m := g.mg
  have mp := th_pos h mgL hm
  have hop : s.op = .hook := by
    apply Classical.byContradiction
    intro hn
    rw [if_neg hn] at m
    omega
  have hfz := g.fz
  have hcb := g.cb
  have hrc0 := g.rc
  have hmdx := g.mdx
  have hlk := g.lk
  rw [hop] at m hfz hcb hrc0 hmdx hlk
  have b1 := th_set h ⟨.mg, n, .gone⟩ hold
  have b2 := th_set h ⟨.mg, n, .gone⟩ clLk
  have b3 := th_set h ⟨.mg, n, .gone⟩ mgL
  have b4 := th_set h ⟨.mg, n, .gone⟩ ioL
  have b5 := th_set h ⟨.mg, n, .gone⟩ clL
  have e2 : clLk t = false := by simp [clLk, hk]
  have e4 : ioL t = false := by simp [ioL, hk]
  have e5 : clL t = false := by simp [clL, hk]
  have f1 : hold ⟨.mg, n, .gone⟩ = false := rfl
  have f2 : clLk ⟨.mg, n, .gone⟩ = false := rfl
  have f3 : mgL ⟨.mg, n, .gone⟩ = false := rfl
  have f4 : ioL ⟨.mg, n, .gone⟩ = false := rfl
  have f5 : clL ⟨.mg, n, .gone⟩ = false := rfl
  have u1 : (if s.lk = true then 1 else 0) ≤ 1 := by split <;> omega
  simp only [e2, e4, e5, hm, f1, f2, f3, f4, f5, if_true, Bool.false_eq_true, if_false,
    Op.own, Op.frz, Op.reg, Op.exc, reduceCtorEq] at b1 b2 b3 b4 b5 hfz hcb hrc0 hmdx hlk m
  have hat : s.att = true := by
    cases ha : s.att
    · exact absurd hop (g.atm ha).1
    · rfl
  have hctx := g.ctx
  unfold ctxOk at hctx
  rw [hop] at hctx
  refine ⟨?_, hfz, hcb, fun x => (by cases x), fun x => (by cases x), hmdx, fun x => (by cases x), ?_, ?_, ?_, ?_,
    fun x => (by cases x), fun _ x => (by cases x), th_ok g.th trivial, g.out, hctx, trivial, g.ref, g.rep⟩
  · simp only [Op.own, Bool.false_eq_true, if_false]; omega
  · simp only [if_true, Bool.false_eq_true, if_false]; omega
  · simp only [reduceCtorEq, if_false]; omega
  · intro x
    rw [hat] at x
    cases x
  · intro x
    rw [hat] at x
    cases x

/-- The callback fires. -/
theorem G.fire {s : St} (g : G s) {o n : Pol} (hop : s.op = .swWait o n) {i : Nat} {t : Th}
    (h : s.ths[i]? = some t) (hh : hold t = true) (h1 : s.rc = 1) (hk : t.kind = .cl)
    (hl : clLk t = false) (m : Nat) :
    G { s with ths := s.ths.set i ⟨.cl, m, .gone⟩, rc := 0, cb := false, op := .swDeinit o n } := by
  have hfz := g.fz
  have hrc0 := g.rc
  have hmdx := g.mdx
  have hlk := g.lk
  have hmg := g.mg
  have hexc := g.exc
  rw [hop] at hfz hrc0 hmdx hlk hmg hexc
  have b1 := th_set h ⟨.cl, m, .gone⟩ hold
  have b2 := th_set h ⟨.cl, m, .gone⟩ clLk
  have b3 := th_set h ⟨.cl, m, .gone⟩ mgL
  have b4 := th_set h ⟨.cl, m, .gone⟩ ioL
  have b5 := th_set h ⟨.cl, m, .gone⟩ clL
  have e3 : mgL t = false := by simp [mgL, hk]
  have e4 : ioL t = false := by simp [ioL, hk]
  have f1 : hold ⟨.cl, m, .gone⟩ = false := rfl
  have f2 : clLk ⟨.cl, m, .gone⟩ = false := rfl
  have f3 : mgL ⟨.cl, m, .gone⟩ = false := rfl
  have f4 : ioL ⟨.cl, m, .gone⟩ = false := rfl
  have f5 : clL ⟨.cl, m, .gone⟩ = false := rfl
  simp only [e3, e4, hh, hl, f1, f2, f3, f4, f5, if_true, Bool.false_eq_true, if_false,
    Op.own, Op.frz, Op.reg, Op.exc, reduceCtorEq] at b1 b2 b3 b4 b5 hfz hrc0 hmdx hlk hmg hexc
  have hctx := g.ctx
  have hsw := g.sw
  unfold ctxOk at hctx
  unfold swOk at hsw
  rw [hop] at hctx hsw
  refine ⟨?_, hfz, rfl, fun x => (by cases x), fun _ => rfl, hmdx, ?_, ?_, ?_, ?_, ?_,
    fun x => (by cases x), fun _ x => (by cases x), th_ok g.th trivial, g.out, hctx, hsw, g.ref, g.rep⟩
  · simp only [Op.own, Bool.false_eq_true, if_false]; omega
  · intro _
    have := hexc trivial
    simp only
    omega
  · simp only [reduceCtorEq, if_false]; omega
  · simp only [reduceCtorEq, if_false]; omega
  · intro x
    have := g.ati x
    simp only
    split at b5 <;> omega
  · intro x
    exact ⟨fun y => (by cases y), (g.atm x).2.1, rfl⟩

/-- What a thread does not change. -/
structure Same (s u : St) : Prop where
  pol : u.pol = s.pol
  ctx : u.ctx = s.ctx
  lost : u.lost = s.lost
  att : u.att = s.att
  crash : u.crash = s.crash
  stopped : u.stopped = s.stopped
  rep : u.rep = s.rep
  ex : ctxEx s → ctxEx u
  op : u.op.swi = true → s.op.swi = true

theorem G.th_step {s u : St} (g : G s) {i : Nat} {t : Th} (h : s.ths[i]? = some t) {c : Bool}
    (hs : thStep s i t c = some u) : G u ∧ Same s u := by
  have ht := g.th t (List.mem_of_getElem? h)
  obtain ⟨k, l, pc⟩ := t
  cases pc with
  | gone => cases hs
  | back => exact ht.elim
  | lk =>
    cases l with
    | zero =>
      cases k with
      | io =>
        cases hs
        exact ⟨g.upd h _ rfl rfl rfl (fun x => (by cases x)) (fun x => x) trivial,
          ⟨rfl, rfl, rfl, rfl, rfl, rfl, rfl, id, id⟩⟩
      | cl => exact absurd (ht (fun x => (by cases x))) (by simp)
      | mg => exact absurd (ht (fun x => (by cases x))) (by simp)
    | succ n =>
      have hf : s.fz = 0 := g.fz0 h (by cases k <;> simp [ioL, clLk, mgL])
      simp only [thStep, hf, if_true, Option.some.injEq] at hs
      subst hs
      exact ⟨g.upd h _ rfl rfl rfl (fun x => x) (fun x => x) trivial,
        ⟨rfl, rfl, rfl, rfl, rfl, rfl, rfl, id, id⟩⟩
  | rd =>
    have hf : s.fz = 0 := g.fz0 h (by cases k <;> simp [ioL, clLk, mgL])
    have hz : s.op.frz = false := by
      have := g.fz
      rw [hf] at this
      cases ho : s.op.frz
      · rfl
      · rw [ho] at this; cases this
    simp only [thStep, Option.some.injEq] at hs
    subst hs
    refine ⟨g.frame h ⟨k, l, .inc⟩ (s.rc + 1) s.lk s.out ?_ ?_ ?_ ?_ ?_ trivial g.out
      (fun he => (g.atm he).2.1) (fun _ => by omega) ?_, ⟨rfl, rfl, rfl, rfl, rfl, rfl, rfl, id, id⟩⟩
    · simp [hold]
    · cases k <;> simp [clLk]
    · cases k <;> rfl
    · cases k <;> exact id
    · cases k <;> exact id
    · intro x
      cases ho : s.op <;> rw [ho] at hz x <;> first | (cases hz; done) | (cases x; done)
  | inc =>
    have hf : s.fz = 0 := g.fz0 h (by cases k <;> simp [ioL, clLk, mgL])
    have hz : s.op.frz = false := by
      have := g.fz
      rw [hf] at this
      cases ho : s.op.frz
      · rfl
      · rw [ho] at this; cases this
    simp only [thStep, hf, if_true, Option.some.injEq] at hs
    subst hs
    have hat : s.att = true := by
      cases ha : s.att
      · have h1 := g.ati ha
        have h2 := (g.atm ha).1
        have m := g.mg
        rw [if_neg h2] at m
        have p1 := th_pos h ioL
        have p2 := th_pos h clL
        have p3 := th_pos h mgL
        cases k with
        | io => have := p1 rfl; omega
        | cl => have := p2 rfl; omega
        | mg => have := p3 rfl; omega
      · rfl
    have hctx : fits s.ctx s.pol = true := by
      have hc := g.ctx
      have ha := g.atx
      unfold ctxOk at hc
      cases ho : s.op <;> rw [ho] at hc hz ha <;>
        first | exact hc hat | (cases hz; done) | (rw [hat] at ha; exact absurd (ha rfl) (by simp))
    refine ⟨g.upd h _ ?_ ?_ ?_ ?_ ?_ ⟨rfl, hctx⟩, ⟨rfl, rfl, rfl, rfl, rfl, rfl, rfl, id, id⟩⟩
    · rfl
    · cases k <;> rfl
    · cases k <;> rfl
    · cases k <;> exact id
    · cases k <;> exact id
  | use p =>
    obtain ⟨hp, hfit⟩ := ht
    simp only [thStep, call, hfit, if_true, Option.some.injEq] at hs
    cases k with
    | io =>
      subst hs
      exact ⟨g.upd h _ rfl rfl rfl (fun x => x) (fun x => x) trivial,
        ⟨rfl, rfl, rfl, rfl, rfl, rfl, rfl, id, id⟩⟩
    | mg =>
      subst hs
      exact ⟨g.upd h _ rfl rfl rfl (fun x => x) (fun x => x) trivial,
        ⟨rfl, rfl, rfl, rfl, rfl, rfl, rfl, id, id⟩⟩
    | cl =>
      have hl := g.lk
      have hpos := th_pos h clLk rfl
      have u1 : (if s.lk = true then 1 else 0) ≤ 1 := by split <;> omega
      have ho : s.out = none := by
        cases hx : s.out with
        | none => rfl
        | some q => rw [hx] at hl; simp only [Option.isSome_some, if_true] at hl; omega
      have hlk : s.lk = true := by
        cases hx : s.lk
        · rw [hx] at hl
          rw [if_neg (by simp : ¬ (false = true))] at hl
          omega
        · rfl
      have hat : s.att = true := by
        cases ha : s.att
        · have h1 := g.ati ha
          have := th_pos h clL rfl
          omega
        · rfl
      simp only at hs
      by_cases hc : (c && p != .nop) = true
      · rw [if_pos hc] at hs
        subst hs
        refine ⟨g.frame h ⟨.cl, l, .run p⟩ s.rc s.lk (some p) rfl ?_ rfl id id ⟨hp, hfit, rfl⟩ ?_ ?_ g.wai
          g.aft, ⟨rfl, rfl, rfl, rfl, rfl, rfl, rfl, id, id⟩⟩
        · rw [ho, hlk]; rfl
        · intro q hq
          cases hq
          exact ⟨hp, hfit⟩
        · intro x
          rw [hat] at x
          cases x
      · rw [if_neg hc] at hs
        subst hs
        refine ⟨g.frame h ⟨.cl, l, .fin⟩ s.rc false s.out rfl ?_ rfl id id trivial g.out
          (fun x => (g.atm x).2.1) g.wai g.aft, ⟨rfl, rfl, rfl, rfl, rfl, rfl, rfl, id, id⟩⟩
        rw [ho, hlk]; rfl
  | run p =>
    obtain ⟨hp, hfit, hk⟩ := ht
    cases hk
    simp only [thStep, hfit, if_true, Option.some.injEq] at hs
    subst hs
    exact ⟨g.upd h _ rfl rfl rfl (fun x => x) (fun x => x) trivial,
      ⟨rfl, rfl, rfl, rfl, rfl, rfl, rfl, id, id⟩⟩
  | fin =>
    have hr := g.rc
    have hpos := th_pos h hold rfl
    have hr0 : s.rc ≠ 0 := by omega
    have ha : s.op.aft = true → False := fun x => hr0 (g.aft x)
    simp only [thStep, Option.some.injEq] at hs
    by_cases hfire : (s.rc = 1 && s.cb) = true
    · have h1 : s.rc = 1 := by simp at hfire; exact hfire.1
      have hcb : s.cb = true := by simp at hfire; exact hfire.2
      have hreg := g.cb
      rw [hcb] at hreg
      have hop : ∃ o n, s.op = .swWait o n := by
        cases ho : s.op <;> rw [ho] at hreg hr <;> first | cases hreg | skip
        · simp only [Op.own, if_true] at hr; omega
        · exact ⟨_, _, rfl⟩
      obtain ⟨o, n, hop⟩ := hop
      have hexc := g.exc
      have hmg := g.mg
      rw [hop] at hexc hmg
      simp only [reduceCtorEq, if_false] at hmg
      cases k with
      | io => have := th_pos h ioL rfl; have := hexc rfl; omega
      | mg => have := th_pos h mgL rfl; omega
      | cl =>
        have hd : decr s = { s with rc := 0, cb := false, op := .swDeinit o n } := by
          simp only [decr, if_neg hr0, if_pos hfire, hop]
        simp only [ret, upd, hd] at hs
        subst hs
        refine ⟨g.fire hop h rfl h1 rfl rfl l, ⟨rfl, rfl, rfl, rfl, rfl, rfl, rfl, ?_, fun _ => (by rw [hop]; rfl)⟩⟩
        intro x
        unfold ctxEx at x ⊢
        rw [hop] at x
        exact x
    · have hd : decr s = { s with rc := s.rc - 1 } := by
        simp only [decr, if_neg hr0, if_neg hfire]
      have hw : s.op.wai = true → s.rc - 1 ≠ 0 := by
        intro x hz
        apply hfire
        have hc := g.cb
        have : s.op.reg = true := by cases ho : s.op <;> rw [ho] at x <;> first | (cases x; done) | rfl
        rw [this] at hc
        simp only [hc, Bool.and_true, decide_eq_true_eq]
        omega
      rw [hd] at hs
      cases k with
      | io =>
        simp only [ret, upd] at hs
        subst hs
        exact ⟨g.frame h ⟨.io, l, .lk⟩ (s.rc - 1) s.lk s.out (by simp [hold]; omega) rfl rfl id id
          (fun x => absurd rfl x) g.out (fun x => (g.atm x).2.1) hw (fun x => (ha x).elim),
          ⟨rfl, rfl, rfl, rfl, rfl, rfl, rfl, id, id⟩⟩
      | cl =>
        simp only [ret, upd] at hs
        subst hs
        exact ⟨g.frame h ⟨.cl, l, .gone⟩ (s.rc - 1) s.lk s.out (by simp [hold]; omega) rfl rfl id
          (fun x => (by cases x)) trivial g.out (fun x => (g.atm x).2.1) hw (fun x => (ha x).elim),
          ⟨rfl, rfl, rfl, rfl, rfl, rfl, rfl, id, id⟩⟩
      | mg =>
        simp only [ret, upd] at hs
        subst hs
        refine ⟨g.endMg h rfl (fun x => (by cases x)) (s.rc - 1) (by simp [hold]; omega) l,
          ⟨rfl, rfl, rfl, rfl, rfl, rfl, rfl, ?_, fun x => (by cases x)⟩⟩
        intro x
        have m := g.mg
        have := th_pos h mgL rfl
        have hop : s.op = .hook := by
          apply Classical.byContradiction
          intro hn
          rw [if_neg hn] at m
          omega
        unfold ctxEx at x ⊢
        rw [hop] at x
        exact x

end Verif.PolicySwitch
