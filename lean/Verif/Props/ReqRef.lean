import Verif.Lemma.ReqRef

/-!
C52: a request of a core is ended once, freed when owner and engines are through with it, and never used after that.
-/

namespace Verif.ReqRef

/-- Specification: nothing of OCF has still to do with the request. -/
def St.over (s : St) : Prop := ∀ t ∈ s.threads, ∃ b, t.cur = .ret b ∧ t.stack = []

/-- Entry points. -/
inductive Entry where
  | io | flush | discard
deriving DecidableEq

def Entry.fn : Entry → Fn
  | .io => .submitIo
  | .flush => .submitFlush
  | .discard => .submitDiscard

/-- Reads and writes without restriction; flushes unless the cache is passed by; discards unless the cache is
passed by, the map cannot be allocated or the request goes on in another thread before
`ocf_hb_req_prot_unlock_rd` returned (defects, below). -/
def Entry.sound (e : Env) : Entry → Prop
  | .io => True
  | .flush => e.d2c = false
  | .discard => e.d2c = false ∧ e.noMem = false ∧ e.late = false

theorem Entry.good {e : Env} {x : Entry} (h : x.sound e) : ReqRef.good e x.fn = true ∧ sig x.fn = start := by
  cases x with
  | io => exact ⟨rfl, rfl⟩
  | flush => exact ⟨by simp only [Entry.fn, ReqRef.good]; rw [show e.d2c = false from h]; rfl, rfl⟩
  | discard =>
    obtain ⟨h1, h2, h3⟩ := h
    exact ⟨by simp only [Entry.fn, ReqRef.good]; rw [h1, h2, h3]; rfl, rfl⟩

variable {e : Env} {x : Entry} {s : St}

/-- C52: the request is never used after it was freed. -/
theorem never_used_freed_partial (h : x.sound e) (hr : Run e (init x.fn) s) : s.bad = false := by
  obtain ⟨xs, hs⟩ := run_inv (Entry.good h).1 (Entry.good h).2 hr
  exact hs.num.bad

/-- C52: the end function is called once at most; the owner's reference is given back once at most and not before
that; as long as the owner has its reference the request is there. -/
theorem ended_once_partial (h : x.sound e) (hr : Run e (init x.fn) s) :
    s.ends ≤ 1 ∧ (s.owner = false → s.ends = 1) ∧ (s.owner = true → 0 < s.refs) := by
  obtain ⟨xs, hs⟩ := run_inv (Entry.good h).1 (Entry.good h).2 hr
  have k1 := hs.num.refs
  have k3 := hs.num.ends
  refine ⟨by omega, hs.num.owner, fun h0 => ?_⟩
  rw [h0] at k1
  simp only [Bool.toNat_true] at k1
  omega

/-- what a finished thread holds: nothing. -/
theorem over_zero {t : Thread} {b : Bool} {y : Res} (h : Typed e t y) (h1 : t.cur = .ret b) (h2 : t.stack = []) :
    y = zero := by
  obtain ⟨py, pn, cur, fr, hc, hf, he⟩ := h
  rw [h2] at hf
  rw [h1] at hc
  cases hf
  have hcur : cur = if b then zero else zero := of_decide_eq_true hc
  rw [he, hcur]
  cases b <;> rfl

/-- C52: when OCF has nothing to do with the request any more it was ended, and the only reference left, if any, is
that of the owner: nothing keeps the cache from being stopped. -/
theorem nothing_left_partial (h : x.sound e) (hr : Run e (init x.fn) s) (ho : s.over) :
    s.ends = 1 ∧ s.refs = s.owner.toNat := by
  obtain ⟨xs, hs⟩ := run_inv (Entry.good h).1 (Entry.good h).2 hr
  have hz : ∀ y ∈ xs, y = zero := by
    intro y hy
    obtain ⟨i, hi, hiy⟩ := List.mem_iff_getElem.1 hy
    have hl : i < s.threads.length := by rw [← hs.len]; exact hi
    obtain ⟨b, h1, h2⟩ := ho s.threads[i] (List.getElem_mem hl)
    refine over_zero (hs.typed i _ y (List.getElem?_eq_getElem hl) ?_) h1 h2
    rw [List.getElem?_eq_getElem hi, hiy]
  have hsum : ∀ (f : Res → Nat), f zero = 0 → ∀ l : List Res, (∀ y ∈ l, y = zero) → (l.map f).sum = 0 := by
    intro f h0 l
    induction l with
    | nil => intro _; rfl
    | cons a l ih =>
      intro hl
      rw [List.map_cons, List.sum_cons, hl a (by simp), h0, ih fun y hy => hl y (by simp [hy])]
  have a1 : sumR xs = 0 := hsum _ rfl xs hz
  have a2 : sumH xs = 0 := hsum _ rfl xs hz
  have a3 : sumC xs = 0 := hsum _ rfl xs hz
  have k2 := hs.num.rem
  have k1 := hs.num.refs
  have k3 := hs.num.ends
  rw [if_pos (by omega)] at k1 k3
  omega

/-- C52: the end function has been called unless somebody has still to do with the request: no request is forgotten. -/
theorem not_forgotten_partial (h : x.sound e) (hr : Run e (init x.fn) s) (h0 : s.ends = 0) :
    ∃ t ∈ s.threads, ¬ ∃ b, t.cur = .ret b ∧ t.stack = [] := by
  refine Classical.byContradiction fun hn => ?_
  have hov : s.over := fun t ht => Classical.byContradiction fun hh => hn ⟨t, ht, hh⟩
  have := (nothing_left_partial h hr hov).1
  omega

/-- C52: a request that had to wait goes on, after it was refreshed, in the handler it had when it began to wait. `i`: the
thread that grants the lock, the next one is that of the queue. -/
theorem resumed {st : List (Prog × Prog)} {i : Nat} (h : s.threads[i]? = some ⟨body e .onResume, st⟩) :
    ∃ t, Run e s t ∧ t.handler = s.handler ∧ t.refs = s.refs ∧ t.ends = s.ends ∧
      t.threads[s.threads.length]? = some ⟨body e s.handler, [(ok, ok), (ok, ok)]⟩ := by
  have hi : i < s.threads.length := (List.getElem?_eq_some_iff.1 h).1
  have a1 := Run.step (e := e) i false 0 (.refl s) h
  have a2 := Run.step (t := ⟨.savePriv (.setH .refresh (.pushH ok)), st⟩) i false 0 a1 (by simp [St.step, body, St.go, St.touch, hi])
  have a3 := Run.step (t := ⟨.setH .refresh (.pushH ok), st⟩) i false 0 a2 (by simp [St.step, body, St.go, St.touch, hi])
  have a4 := Run.step (t := ⟨.pushH ok, st⟩) i false 0 a3 (by simp [St.step, body, St.go, St.touch, hi])
  have b1 := Run.step (t := ⟨.callH ok, []⟩) s.threads.length false 0 a4
    (by simp [St.step, body, St.go, St.start, St.touch])
  have b2 := Run.step (t := ⟨body e .refresh, [(ok, ok)]⟩) s.threads.length false 0 b1
    (by simp [St.step, body, St.go, St.start, St.touch])
  have b3 := Run.step (t := ⟨.either (.loadPriv (.callH ok)) (void .reqComplete (.use (.put ok))), [(ok, ok)]⟩) s.threads.length true 0 b2
    (by simp [St.step, body, St.go, St.start, St.touch])
  have b4 := Run.step (t := ⟨.loadPriv (.callH ok), [(ok, ok)]⟩) s.threads.length false 0 b3
    (by simp [St.step, body, St.go, St.start, St.touch])
  have b5 := Run.step (t := ⟨.callH ok, [(ok, ok)]⟩) s.threads.length false 0 b4
    (by simp [St.step, body, St.go, St.start, St.touch])
  refine ⟨_, b5, ?_⟩
  simp [St.step, body, St.go, St.start, St.touch]

/-! Concrete runs. -/

/-- Steps: `some (i, c, n)` of thread `i`, `none` the owner's put. -/
def runOps (e : Env) (s : St) : List (Option (Nat × Bool × Nat)) → Option St
  | [] => some s
  | none :: os => if 0 < s.ends ∧ s.owner = true then runOps e { s.touch with owner := false, refs := s.refs - 1 } os else none
  | some (i, c, n) :: os => match s.threads[i]? with
    | some t => runOps e (s.step e i c n t) os
    | none => none

theorem runOps_run : ∀ {os : List (Option (Nat × Bool × Nat))} {a s t : St}, Run e a s → runOps e s os = some t → Run e a t
  | [], _, _, _, h, h1 => by cases h1; exact h
  | none :: os, _, s, _, h, h1 => by
    unfold runOps at h1
    split at h1
    · rename_i hc
      exact runOps_run (Run.ownerPut h hc.1 hc.2) h1
    · cases h1
  | some (i, c, n) :: os, _, s, _, h, h1 => by
    unfold runOps at h1
    cases ht : s.threads[i]? with
    | none => rw [ht] at h1; cases h1
    | some t => rw [ht] at h1; exact runOps_run (Run.step i c n h ht) h1

def many (k i : Nat) (c : Bool) : List (Option (Nat × Bool × Nat)) := List.replicate k (some (i, c, 0))

def St.isOver (s : St) : Bool := s.threads.all fun t => match t.cur, t.stack with
  | .ret _, [] => true
  | _, _ => false

theorem isOver_over {s : St} (h : s.isOver = true) : s.over := by
  intro t ht
  have := List.all_eq_true.1 h t ht
  split at this
  · rename_i b h1 h2; exact ⟨b, h1, h2⟩
  · cases this

theorem any_some {α} {o : Option α} {p : α → Bool} (h : o.any p = true) : ∃ a, o = some a ∧ p a = true := by
  cases o with
  | none => cases h
  | some a => exact ⟨a, rfl, h⟩

/-- The defect of `ocf_d2c_flush_fast`: the device completes the flush before `ocf_engine_update_block_stats` is called, the
owner puts its reference in the end function, and the statistics are taken from a freed request. `ocf_d2c_io_fast` holds
a reference for this. -/
theorem d2c_flush_used_freed : ∃ s, Run ⟨true, false, false⟩ (init .submitFlush) s ∧ s.bad = true := by
  have h : (runOps ⟨true, false, false⟩ (init .submitFlush)
      (many 7 0 false ++ many 9 1 false ++ [none] ++ many 1 0 false)).any (·.bad) = true := by decide +kernel
  obtain ⟨s, h1, h2⟩ := any_some h
  exact ⟨s, runOps_run (.refl _) h1, h2⟩

/-- `ocf_d2c_discard_fast` likewise. -/
theorem d2c_discard_used_freed : ∃ s, Run ⟨true, false, false⟩ (init .submitDiscard) s ∧ s.bad = true := by
  have h : (runOps ⟨true, false, false⟩ (init .submitDiscard)
      (many 7 0 false ++ many 9 1 false ++ [none] ++ many 1 0 false)).any (·.bad) = true := by decide +kernel
  obtain ⟨s, h1, h2⟩ := any_some h
  exact ⟨s, runOps_run (.refl _) h1, h2⟩

/-- The defect of `ocf_core_volume_submit_discard`: when the map cannot be allocated the reference taken for the completion is
not put. The request is never freed, and its reference to the metadata keeps the cache from being stopped or
detached. -/
theorem discard_no_memory_leaks : ∃ s, Run ⟨false, true, false⟩ (init .submitDiscard) s ∧ s.over ∧ s.owner = false ∧
    s.refs = 1 := by
  have h : (runOps ⟨false, true, false⟩ (init .submitDiscard) (many 7 0 false ++ [none])).any
      (fun s => s.isOver && s.owner == false && s.refs == 1) = true := by decide +kernel
  obtain ⟨s, h1, h2⟩ := any_some h
  obtain ⟨h2, h3⟩ := and_true' h2
  obtain ⟨h2, h4⟩ := and_true' h2
  exact ⟨s, runOps_run (.refl _) h1, isOver_over h2, by simpa using h4, by simpa using h3⟩

/-- and stays so: with the owner gone and no thread left there is no step any more. -/
theorem leak_stays {s t : St} (h : Run e s t) (ho : s.over) (hw : s.owner = false) : t = s := by
  induction h with
  | refl => rfl
  | step i c n _ ht ih =>
    subst ih
    rename_i s0 t0 _
    obtain ⟨b, h1, h2⟩ := ho t0 (List.mem_of_getElem? ht)
    unfold St.step
    rw [h1]
    simp only []
    rw [h2]
  | ownerPut _ _ h3 ih =>
    subst ih
    rw [hw] at h3
    cases h3

/-- The defect of `_ocf_discard_step` when it is called from the queue, for a second or later step: it holds no reference of its
own; the lock it waits for is granted, another thread finishes the request, and `ocf_hb_req_prot_unlock_rd` then
reads the freed request for the next bucket and the lock index. -/
theorem discard_used_freed : ∃ s, Run ⟨false, false, true⟩ (init .submitDiscard) s ∧ s.bad = true := by
  have h : (runOps ⟨false, false, true⟩ (init .submitDiscard)
      (many 11 0 false ++ many 1 0 true ++ many 32 0 false ++ many 4 1 false ++ many 2 1 true ++ many 6 2 false ++
       many 11 3 false ++ [some (3, false, 2)] ++ many 6 3 false ++ many 5 4 false ++ many 12 5 false ++ [none] ++
       many 1 1 false)).any (·.bad) = true := by decide +kernel
  obtain ⟨s, h1, h2⟩ := any_some h
  exact ⟨s, runOps_run (.refl _) h1, h2⟩

/-- a write through: both devices answer, and the owner puts, while `_ocf_write_wt_do` is still at work; two references are
left, of the function itself and of its caller. -/
example : (runOps ⟨false, false, false⟩ (init .submitIo)
    (many 8 0 false ++ many 1 0 true ++ many 7 0 false ++ [some (0, false, 3)] ++ many 4 0 false ++
     many 6 1 false ++ many 1 1 true ++ many 12 1 false ++ many 20 2 false ++ many 20 3 false ++ [none])).any
    (fun s => !s.bad && s.ends == 1 && !s.isOver && s.owner == false && s.refs == 2) = true := by decide +kernel

/-- In the end all is given back. -/
example : (runOps ⟨false, false, false⟩ (init .submitIo)
    (many 8 0 false ++ many 1 0 true ++ many 7 0 false ++ [some (0, false, 3)] ++ many 4 0 false ++
     many 6 1 false ++ many 1 1 true ++ many 12 1 false ++ many 20 2 false ++ many 20 3 false ++ [none] ++
     many 10 1 false)).any
    (fun s => !s.bad && s.ends == 1 && s.isOver && s.owner == false && s.refs == 0) = true := by decide +kernel

end Verif.ReqRef
