import Verif.Lemma.ReqAlloc

/-!
C53. Every request gives back exactly what it took, whichever allocations fail.
-/

namespace Verif.ReqAlloc

open Verif.Mpool

variable {p : Pool} {qb vb : Nat → Nat} {s t : St}

/-! ## What is claimed -/

/-- The requests that are live. -/
def St.reqs (s : St) : List Rq := s.live.filterMap id

/-- The calls of `ocf_req_new` under way. -/
def St.calls (s : St) : List Pend := s.pend.filterMap id

/-- Each counter is the number of those who hold it: `refcnt.metadata` is held by the requests for
cached I/O and those of the cleaner, `refcnt.d2c` by the requests that go to the core directly, a queue
by each request of it, a volume by each I/O not yet put. Each object of a pool and each block belongs
to one live request. -/
structure Counted (qb vb : Nat → Nat) (s : St) : Prop where
  md : s.md = (s.reqs.filter (fun r => !r.d2c && (!r.isMngt || r.cleaner))).length +
    (s.calls.filter (fun c => c.stage = .cached)).length
  dc : s.dc = (s.reqs.filter (fun r => r.d2c)).length + (s.calls.filter (fun c => c.stage = .direct)).length + s.leaked
  queue : ∀ q, s.qref q = qb q + (s.reqs.filter (fun r => r.queue = q)).length +
    (s.calls.filter (fun c => c.queue = q)).length
  vol : ∀ v, s.vref v = vb v + (s.reqs.filter (fun r => r.vol = some v)).length +
    (s.calls.filter (fun c => c.vol = some v)).length
  pool : ∀ i, s.pool i = (s.reqs.filter (fun r => r.org = some i)).length
  heap : s.heap = (s.reqs.filter (fun r => r.org = none)).length + (s.reqs.filter (fun r => r.map = .own)).length

/-! ## Proofs -/

theorem countP_any {α : Type} (f : α → Bool) (l : List (Option α)) :
    l.countP (fun o => o.any f) = ((l.filterMap id).filter f).length := by
  induction l with
  | nil => rfl
  | cons o l ih =>
    cases o with
    | none => simpa using ih
    | some a =>
      rw [List.countP_cons, ih]
      by_cases h : f a = true <;> simp [h]

/-- What others hold. -/
def others (qb vb : Nat → Nat) : Hold := ⟨0, 0, qb, vb, fun _ => 0, 0⟩

theorem bal_run (hr : Run p (init qb vb) s) : Bal p s (others qb vb) := by
  induction hr with
  | refl =>
    refine ⟨rfl, rfl, ?_, ?_, fun _ => rfl, rfl, ?_⟩
    · intro q; show qb q = 0 + 0 + qb q; omega
    · intro q; show vb q = 0 + 0 + vb q; omega
    · intro k r h; simp [init] at h
  | step _ st ih => exact (bal_step ih st).1

/-- At every moment of every execution, with any failures, each counter is the number of its holders
(`refcnt.d2c` with those lost by failures of `ocf_req_new_d2c`). -/
theorem counted (hr : Run p (init qb vb) s) : Counted qb vb s := by
  have b := bal_run hr
  have e : ∀ f, nLive s f = (s.reqs.filter f).length := fun f => countP_any f s.live
  have e' : ∀ f, nPend s f = (s.calls.filter f).length := fun f => countP_any f s.pend
  have ho : (others qb vb).md = 0 ∧ (others qb vb).dc = 0 ∧ (others qb vb).heap = 0 := ⟨rfl, rfl, rfl⟩
  refine ⟨?_, ?_, ?_, ?_, ?_, ?_⟩
  · have := b.md
    rw [e, e', ho.1] at this
    exact this
  · have := b.dc
    rw [e, e', ho.2.1] at this
    exact this
  · intro q
    have := b.q q
    rw [e, e'] at this
    have h2 : (others qb vb).q q = qb q := rfl
    omega
  · intro q
    have := b.v q
    rw [e, e'] at this
    have h2 : (others qb vb).v q = vb q := rfl
    omega
  · intro i
    have := b.pool i
    rw [e] at this
    exact this
  · have := b.heap
    rw [e, e, ho.2.2] at this
    exact this

/-- Once all requests are put and no call is under way, all memory, all references to queues and volumes
and all units of `refcnt.metadata` are back; those of `refcnt.d2c` but for the failures of
`ocf_req_new_d2c`. -/
theorem all_returned_partial (hr : Run p (init qb vb) s) (hl : ∀ o ∈ s.live, o = none) (hp : ∀ o ∈ s.pend, o = none) :
    s.md = 0 ∧ s.qref = qb ∧ s.vref = vb ∧ s.pool = (fun _ => 0) ∧ s.heap = 0 ∧ s.dc = s.leaked := by
  have c := counted hr
  have h1 : s.reqs = [] := by
    rw [St.reqs, List.filterMap_eq_nil_iff]
    intro o ho; rw [hl o ho]; rfl
  have h2 : s.calls = [] := by
    rw [St.calls, List.filterMap_eq_nil_iff]
    intro o ho; rw [hp o ho]; rfl
  obtain ⟨c1, c2, c3, c4, c5, c6⟩ := c
  rw [h1, h2] at c1 c2
  rw [h1] at c6
  refine ⟨c1, ?_, ?_, ?_, c6, by rw [c2]; simp⟩
  · funext q; have := c3 q; rw [h1, h2] at this; exact this
  · funext q; have := c4 q; rw [h1, h2] at this; exact this
  · funext q; have := c5 q; rw [h1] at this; exact this

/-- A step that leaves the live requests and the calls under way as they are, such as an allocation
that fails, leaves all counters as they are. -/
theorem failed_keeps (hr : Run p (init qb vb) s) (st : Step p s t) (h1 : t.reqs = s.reqs) (h2 : t.calls = s.calls)
    (h3 : t.leaked = s.leaked) :
    t.md = s.md ∧ t.dc = s.dc ∧ t.qref = s.qref ∧ t.vref = s.vref ∧ t.pool = s.pool ∧ t.heap = s.heap := by
  have a := counted hr
  have b := counted (Run.step hr st)
  refine ⟨?_, ?_, ?_, ?_, ?_, ?_⟩
  · rw [a.md, b.md, h1, h2]
  · rw [a.dc, b.dc, h1, h2, h3]
  · funext q; rw [a.queue, b.queue, h1, h2]
  · funext q; rw [a.vol, b.vol, h1, h2]
  · funext q; rw [a.pool, b.pool, h1]
  · rw [a.heap, b.heap, h1]

/-- `ocf_req_new_cleaner` fails and leaves the live requests as they are, or makes one request with one
reference and a map. -/
theorem cleaner_result (q : Nat) (mq : Bool) (n : Nat) (ok1 ok2 ok3 : Bool) (hn : 0 < n) :
    (s.newCleaner p q mq n ok1 ok2 ok3).reqs = s.reqs ∨
    ∃ r, (s.newCleaner p q mq n ok1 ok2 ok3).reqs = s.reqs ++ [r] ∧ r.queue = q ∧ r.refs = 1 ∧ r.lines = n ∧
      r.map ≠ .null ∧ r.cleaner = true := by
  have push : ∀ (u : St) (r : Rq), (u.push r).reqs = u.reqs ++ [r] := by
    intro u r; unfold St.push St.reqs; simp
  unfold St.newCleaner
  by_cases hf : s.mFrz = true
  · rw [if_pos hf]; exact Or.inl rfl
  rw [if_neg hf]
  have hmd : ∀ u : St, u.mdDec.reqs = u.reqs := by intro u; unfold St.mdDec; split <;> rfl
  dsimp only
  by_cases hq : mq = true
  · subst hq
    rw [if_pos rfl]
    by_cases h1 : ok1 = true
    · rw [if_pos h1, push]
      exact Or.inr ⟨_, rfl, rfl, rfl, rfl, by simp, rfl⟩
    · rw [if_neg h1, hmd]; exact Or.inl rfl
  · rw [if_neg hq]
    have hq' : mq = false := by simpa using hq
    subst hq'
    cases e1 : pnew p n ok1 with
    | some i =>
      dsimp only
      rw [push]
      exact Or.inr ⟨_, rfl, rfl, rfl, rfl, by simp, rfl⟩
    | none =>
      dsimp only
      cases e2 : pnew p 1 ok2 with
      | none => dsimp only; rw [hmd]; exact Or.inl rfl
      | some i =>
        dsimp only
        generalize hr : Rq.mk q none 1 false false true 1 n .null (some i) = r
        have hbase : ((s.mdInc.ptake i).qget q).live = s.live := rfl
        generalize (s.mdInc.ptake i).qget q = u at hbase ⊢
        have hlast : (u.push r).live.length - 1 = u.live.length := by unfold St.push; simp
        rw [hlast]
        have hnull : r.map = .null := by rw [← hr]
        have hlines : r.lines ≠ 0 := by rw [← hr]; show n ≠ 0; omega
        have hset : ∀ o : Option Rq, (u.push r).live.set u.live.length o = u.live ++ [o] := by
          intro o; unfold St.push; simp
        unfold St.allocMap
        have hnn : ¬ r.map ≠ .null := by simp [hnull]
        simp only [if_neg hnn, if_neg hlines]
        by_cases h3 : ok3 = true
        · simp only [if_pos h3, if_true]
          right
          refine ⟨{ r with map := .own }, ?_, by rw [← hr], by rw [← hr], by rw [← hr], by simp, by rw [← hr]⟩
          unfold St.reqs
          dsimp only
          rw [hset, hbase]
          simp
        · simp only [if_neg h3, Bool.false_eq_true, if_false]
          left
          have hlive : ((u.push r).put p u.live.length r).live = (u.push r).live.set u.live.length none := by
            unfold St.put
            have hr1 : r.refs = 1 := by rw [← hr]
            rw [if_neg (by omega), if_neg (by simp [hr1])]
            have q1 : ∀ (v : St) (q : Nat), (v.qput q).live = v.live := by intro v q; unfold St.qput; split <;> rfl
            have q2 : ∀ (v : St) (n : Nat), (v.pdel p n).live = v.live := by
              intro v n; unfold St.pdel; split
              · rfl
              · split <;> rfl
            have q4 : ∀ (v : St), v.mdDec.live = v.live := by intro v; unfold St.mdDec; split <;> rfl
            dsimp only
            rw [q1]
            have e3 : r.d2c = false := by rw [← hr]
            have e4 : r.isMngt = false := by rw [← hr]
            have e6 : r.map ≠ .own := by rw [hnull]; simp
            simp only [e3, e4, Bool.false_eq_true, if_false, if_neg e6, Bool.not_false, Bool.true_or, if_true]
            rw [q2, q4]
          unfold St.reqs
          rw [hlive, hset, hbase]
          simp

/-- The only failed assertion: `ocf_req_new` finds `refcnt.metadata` frozen, and `refcnt.d2c` frozen when
it goes for that. In particular no counter is put below zero and no memory is freed twice. -/
theorem bug_only_race (hr : Run p (init qb vb) s) (st : Step p s t) (h0 : s.bug = false) (h1 : t.bug = true) :
    s.dFrz = true ∧ ∃ (k : Nat) (c : Pend), s.pend[k]? = some (some c) ∧ c.stage = .seek := by
  rcases (bal_step (bal_run hr) st).2 with h | h
  · rw [h, h0] at h1; cases h1
  · exact h

/-! ## The unit of `refcnt.d2c` lost by a failure -/

theorem put_leaked (s : St) (k : Nat) (r : Rq) : (s.put p k r).leaked = s.leaked := by
  have q1 : ∀ (v : St) (q : Nat), (v.qput q).leaked = v.leaked := by intro v q; unfold St.qput; split <;> rfl
  have q2 : ∀ (v : St) (n : Nat), (v.pdel p n).leaked = v.leaked := by
    intro v n; unfold St.pdel; split
    · rfl
    · split <;> rfl
  have q3 : ∀ (v : St), v.hfree.leaked = v.leaked := by intro v; unfold St.hfree; split <;> rfl
  have q4 : ∀ (v : St), v.mdDec.leaked = v.leaked := by intro v; unfold St.mdDec; split <;> rfl
  have q5 : ∀ (v : St), v.dcDec.leaked = v.leaked := by intro v; unfold St.dcDec; split <;> rfl
  unfold St.put
  split
  · rfl
  split
  · rfl
  dsimp only
  rw [q1]
  split
  · rw [q3]
    split
    · rw [q5]
    · split
      · rw [q4]
      · rfl
  · rw [q2]
    split
    · rw [q3]
      split
      · rw [q5]
      · split
        · rw [q4]
        · rfl
    · split
      · rw [q5]
      · split
        · rw [q4]
        · rfl

theorem vDec_leaked (s : St) (o : Option Nat) : (s.vDec o).leaked = s.leaked := by
  cases o with
  | none => rfl
  | some v => unfold St.vDec; dsimp only; split <;> rfl

theorem vInc_leaked (s : St) (o : Option Nat) : (s.vInc o).leaked = s.leaked := by cases o <;> rfl

theorem qput_leaked (s : St) (q : Nat) : (s.qput q).leaked = s.leaked := by unfold St.qput; split <;> rfl

theorem mdDec_leaked (s : St) : s.mdDec.leaked = s.leaked := by unfold St.mdDec; split <;> rfl

theorem take_leaked (s : St) (q : Nat) (vol : Option Nat) (n l : Nat) (ok1 ok2 : Bool) :
    (s.take p q vol n l ok1 ok2).leaked = s.leaked := by
  unfold St.take
  dsimp only
  split
  · rfl
  · split
    · rfl
    · rw [vDec_leaked, qput_leaked, mdDec_leaked]

theorem map_leaked (s : St) (k : Nat) (r : Rq) (ok : Bool) : (s.allocMap k r ok).1.leaked = s.leaked := by
  unfold St.allocMap
  split
  · rfl
  split
  · rfl
  split <;> rfl

/-- What is lost stays lost. -/
theorem leaked_mono (st : Step p s t) : s.leaked ≤ t.leaked := by
  cases st with
  | mngt q ok => unfold St.newMngt; split <;> exact Nat.le_refl _
  | cleaner q mq n ok1 ok2 ok3 hn =>
    refine Nat.le_of_eq ?_
    unfold St.newCleaner
    split
    · rfl
    dsimp only
    split
    · split
      · rfl
      · rw [mdDec_leaked]; rfl
    · split
      · rfl
      · split
        · rw [mdDec_leaked]; rfl
        · split
          · rw [map_leaked]; rfl
          · rw [put_leaked, map_leaked]; rfl
  | cache q vol n ok1 ok2 hn =>
    refine Nat.le_of_eq ?_
    unfold St.newCache
    dsimp only
    split
    · rw [vDec_leaked, vInc_leaked]
    · rw [take_leaked]; exact (vInc_leaked ..).symm
  | start q vol n hn =>
    refine Nat.le_of_eq ?_
    unfold St.newStart
    dsimp only
    split <;> exact (vInc_leaked ..).symm
  | seek k c hc hs => unfold St.newSeek; split <;> exact Nat.le_refl _
  | direct k c ok hc hs =>
    unfold St.newDirect
    dsimp only
    split
    · exact Nat.le_refl _
    · rw [vDec_leaked, qput_leaked]; exact Nat.le_succ _
  | cached k c ok1 ok2 hc hs => unfold St.newCached; rw [take_leaked]; exact Nat.le_refl _
  | map k r ok hr hl => rw [map_leaked]; exact Nat.le_refl _
  | get k r hr => exact Nat.le_refl _
  | put k r hr hv => rw [put_leaked]; exact Nat.le_refl _
  | ioPut k r v hr hv => unfold St.ioPut; rw [vDec_leaked, put_leaked]; exact Nat.le_refl _
  | attach h1 h2 => exact Nat.le_refl _
  | attached h1 h2 => exact Nat.le_refl _
  | detach h1 h2 => exact Nat.le_refl _

/-- Executions from a state. -/
theorem run_trans {a : St} (h1 : Run p a s) (h2 : Run p s t) : Run p a t := by
  induction h2 with
  | refl => exact h1
  | step _ st ih => exact .step ih st

/-- Defect: after one failure of `ocf_req_new_d2c`, `refcnt.d2c` is never zero again, whatever follows:
no attach can finish. -/
theorem attach_never_finishes (hr : Run p (init qb vb) s) (hl : 0 < s.leaked) (h2 : Run p s t) :
    0 < t.dc ∧ (s.dFrz = true → t.dFrz = true) := by
  have hmono : s.leaked ≤ t.leaked := by
    clear hl
    induction h2 with
    | refl => exact Nat.le_refl _
    | step _ st ih => exact Nat.le_trans ih (leaked_mono st)
  have hdc : ∀ u, Run p s u → 0 < u.dc := by
    intro u hu
    have hm : s.leaked ≤ u.leaked := by
      clear hl h2
      induction hu with
      | refl => exact Nat.le_refl _
      | step _ st ih => exact Nat.le_trans ih (leaked_mono st)
    have := (counted (run_trans hr hu)).dc
    omega
  refine ⟨hdc t h2, fun hf => ?_⟩
  clear hmono
  induction h2 with
  | refl => exact hf
  | @step u w hu st ih =>
    have hd := hdc u hu
    have keep : ∀ v : St, v.dFrz = u.dFrz → v.dFrz = true := fun v e => by rw [e]; exact ih
    have v1 : ∀ (v : St) (o : Option Nat), (v.vDec o).dFrz = v.dFrz := by
      intro v o; cases o with
      | none => rfl
      | some x => unfold St.vDec; dsimp only; split <;> rfl
    have v2 : ∀ (v : St) (o : Option Nat), (v.vInc o).dFrz = v.dFrz := by intro v o; cases o <;> rfl
    have q1 : ∀ (v : St) (q : Nat), (v.qput q).dFrz = v.dFrz := by intro v q; unfold St.qput; split <;> rfl
    have q2 : ∀ (v : St) (n : Nat), (v.pdel p n).dFrz = v.dFrz := by
      intro v n; unfold St.pdel; split
      · rfl
      · split <;> rfl
    have q3 : ∀ (v : St), v.hfree.dFrz = v.dFrz := by intro v; unfold St.hfree; split <;> rfl
    have q4 : ∀ (v : St), v.mdDec.dFrz = v.dFrz := by intro v; unfold St.mdDec; split <;> rfl
    have q5 : ∀ (v : St), v.dcDec.dFrz = v.dFrz := by intro v; unfold St.dcDec; split <;> rfl
    have hput : ∀ (v : St) (k : Nat) (r : Rq), (v.put p k r).dFrz = v.dFrz := by
      intro v k r
      have q6 : ∀ (v : St), (if r.d2c then v.dcDec else if !r.isMngt || r.cleaner then v.mdDec else v).dFrz = v.dFrz := by
        intro v
        split
        · rw [q5]
        · split
          · rw [q4]
          · rfl
      unfold St.put
      split
      · rfl
      split
      · rfl
      dsimp only
      rw [q1]
      split
      · rw [q3, q6]
      · rw [q2]
        split
        · rw [q3, q6]
        · rw [q6]
    have htake : ∀ (v : St) (q : Nat) (vol : Option Nat) (n l : Nat) (ok1 ok2 : Bool),
        (v.take p q vol n l ok1 ok2).dFrz = v.dFrz := by
      intro v q vol n l ok1 ok2
      unfold St.take
      dsimp only
      split
      · rfl
      · split
        · rfl
        · rw [v1, q1, q4]
    have hmap : ∀ (v : St) (k : Nat) (r : Rq) (ok : Bool), (v.allocMap k r ok).1.dFrz = v.dFrz := by
      intro v k r ok
      unfold St.allocMap
      split
      · rfl
      split
      · rfl
      split <;> rfl
    cases st with
    | mngt q ok => apply keep; unfold St.newMngt; split <;> rfl
    | cleaner q mq n ok1 ok2 ok3 hn =>
      apply keep
      unfold St.newCleaner
      split
      · rfl
      dsimp only
      split
      · split
        · rfl
        · rw [q4]; rfl
      · split
        · rfl
        · split
          · rw [q4]; rfl
          · split
            · rw [hmap]; rfl
            · rw [hput, hmap]; rfl
    | cache q vol n ok1 ok2 hn =>
      apply keep
      unfold St.newCache
      dsimp only
      split
      · rw [v1, v2]
      · rw [htake]; exact v2 ..
    | start q vol n hn =>
      apply keep
      unfold St.newStart
      dsimp only
      split <;> exact v2 ..
    | seek k c hc hs => apply keep; unfold St.newSeek; split <;> rfl
    | direct k c ok hc hs =>
      apply keep
      unfold St.newDirect
      dsimp only
      split
      · rfl
      · rw [v1, q1]; rfl
    | cached k c ok1 ok2 hc hs => apply keep; unfold St.newCached; rw [htake]; rfl
    | map k r ok hr hl => apply keep; rw [hmap]
    | get k r hr => exact ih
    | put k r hr hv => apply keep; rw [hput]
    | ioPut k r v hr hv => apply keep; unfold St.ioPut; rw [v1, hput]
    | attach h1 h2 => rfl
    | attached h1 h2 => omega
    | detach h1 h2 => exact ih

/-! ## Executions -/

/-- A pool as in the code, with plausible sizes. -/
def pool0 : Pool := reqPool 400 24

/-- The state after a call of `ocf_req_new` on a detached cache whose allocation fails. -/
def leakSt : St := (((init (fun _ => 1) (fun _ => 0)).newStart 3 (some 5) 1).newSeek 0 ⟨3, some 5, 1, .seek⟩).newDirect
  pool0 0 ⟨3, some 5, 1, .direct⟩ false

theorem leakSt_run : Run pool0 (init (fun _ => 1) (fun _ => 0)) leakSt :=
  .step (.step (.step .refl (.start 3 (some 5) 1 (by omega))) (.seek 0 ⟨3, some 5, 1, .seek⟩ rfl rfl))
    (.direct 0 ⟨3, some 5, 1, .direct⟩ false rfl rfl)

/-- Defect: a request that goes to the core directly and finds no memory leaves `refcnt.d2c` at one with
no request live and no call under way. -/
theorem d2c_leak : ∃ s, Run pool0 (init (fun _ => 1) (fun _ => 0)) s ∧ s.reqs = [] ∧ s.calls = [] ∧ s.dc = 1 ∧
    s.bug = false := ⟨leakSt, leakSt_run, by decide, by decide, by decide, by decide⟩

/-- The case of `attach_never_finishes`: an attach after it. -/
example : ∃ s, Run pool0 (init (fun _ => 1) (fun _ => 0)) s ∧ 0 < s.leaked ∧ s.dFrz = true :=
  ⟨{ leakSt with mFrz := false, dFrz := true }, .step leakSt_run (.attach rfl rfl), by decide, by decide⟩

/-- Defect: `ocf_req_new` finds `refcnt.metadata` frozen; an attach switches; `ocf_req_new` finds
`refcnt.d2c` frozen too, and stops with `ENV_BUG`. -/
theorem new_in_attach_bug : ∃ s, Run pool0 (init (fun _ => 1) (fun _ => 0)) s ∧ s.bug = true :=
  ⟨St.newSeek { (init (fun _ => 1) (fun _ => 0)).newStart 3 (some 5) 1 with mFrz := false, dFrz := true }
      0 ⟨3, some 5, 1, .seek⟩,
    .step (.step (.step .refl (.start 3 (some 5) 1 (by omega))) (.attach rfl rfl))
      (.seek 0 ⟨3, some 5, 1, .seek⟩ rfl rfl), by decide⟩

/-- The case of `bug_only_race`. -/
example : ∃ s t, Run pool0 (init (fun _ => 1) (fun _ => 0)) s ∧ Step pool0 s t ∧ s.bug = false ∧ t.bug = true :=
  ⟨_, _, .step (.step .refl (.start 3 (some 5) 1 (by omega))) (.attach rfl rfl),
    .seek 0 ⟨3, some 5, 1, .seek⟩ rfl rfl, by decide, by decide⟩

/-- An attached cache: a write of 200 lines gets a small request and a map of its own; a cleaner
request finds no memory for its map and is given up. -/
def busy : St :=
  let s := init (fun _ => 1) (fun _ => 0)
  let s := { s with mFrz := false, dFrz := true }
  let s := { s with dFrz := false }
  let s := s.newStart 3 (some 5) 200
  let s := s.newCached pool0 0 ⟨3, some 5, 200, .cached⟩ true true
  let s := (s.allocMap 0 (Rq.mk 3 (some 5) 1 false false false 1 200 .null (some 0)) true).1
  s.newCleaner pool0 3 false 130 true true false

theorem busy_run : Run pool0 (init (fun _ => 1) (fun _ => 0)) busy :=
  .step (.step (.step (.step (.step (.step .refl (.attach rfl rfl)) (.attached rfl rfl))
    (.start 3 (some 5) 200 (by omega))) (.cached 0 ⟨3, some 5, 200, .cached⟩ true true rfl rfl))
    (.map 0 (Rq.mk 3 (some 5) 1 false false false 1 200 .null (some 0)) true (by decide) (by decide)))
    (.cleaner 3 false 130 true true false (by omega))

/-- Non-trivial case of `counted`: one request holds one of everything. -/
example : busy.reqs.length = 1 ∧ busy.md = 1 ∧ busy.dc = 0 ∧ busy.qref 3 = 2 ∧ busy.vref 5 = 1 ∧ busy.pool 0 = 1 ∧
    busy.heap = 1 ∧ busy.bug = false := by decide

/-- Non-trivial case of `all_returned_partial`: the same after the I/O is put. -/
example : ∃ s, Run pool0 (init (fun _ => 1) (fun _ => 0)) s ∧ (∀ o ∈ s.live, o = none) ∧ (∀ o ∈ s.pend, o = none) ∧
    2 ≤ s.live.length ∧ s.leaked = 0 ∧ s.md = 0 ∧ s.heap = 0 :=
  ⟨busy.ioPut pool0 0 (Rq.mk 3 (some 5) 1 false false false 1 200 .own (some 0)),
    .step busy_run (.ioPut 0 _ 5 (by decide) rfl), by decide, by decide, by decide, by decide, by decide, by decide⟩

/-- The case of `failed_keeps` and `cleaner_result`. -/
example : (busy.newCleaner pool0 3 false 130 true true false).reqs = busy.reqs ∧ 0 < busy.reqs.length ∧
    (busy.newCleaner pool0 3 false 130 true true false).live.length = busy.live.length + 1 ∧
    (busy.newCleaner pool0 3 false 130 true true true).reqs.length = busy.reqs.length + 1 := by decide

end Verif.ReqAlloc
