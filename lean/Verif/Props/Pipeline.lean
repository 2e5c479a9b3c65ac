import Verif.Model.Pipeline

/-!
C23. The specification runs a declared list of steps by structural recursion; the machine of
`Model.Pipeline` (program counter, argument counter, requeued request) must produce the same
events, whatever handlers and predicates do.
-/

namespace Verif.Pipeline

/-- A step as declared by a pipeline's author. -/
inductive Decl (σ : Type)
  | single (h : Hndl σ) (a : Nat)
  | cond (p : Arg → σ → Bool) (h : Hndl σ) (a : Nat)
  | foreach (h : Hndl σ) (args : List Nat)

/-- What the `OCF_PL_STEP*` macros build for a declaration. -/
def Decl.toStep {σ} : Decl σ → PStep σ
  | .single h a => .single h (.val a)
  | .cond p h a => .cond p h (.val a)
  | .foreach h args => .foreach h (args.map .val ++ [.term])

/-- The step array, closed by `OCF_PL_STEP_TERMINATOR`. -/
def compile {σ} (ds : List (Decl σ)) : List (PStep σ) := ds.map Decl.toStep ++ [.term]

/-- Spec: run a list of handler calls one after the other, stop at the first that finishes. -/
def specCalls {σ} (k : Nat) (h : Hndl σ) (rest : σ → List (Event σ)) :
    List Nat → σ → List (Event σ)
  | [], st => rest st
  | a :: as, st => .call k (.val a) st ::
    match h (.val a) st with
    | (st', none) => specCalls k h rest as st'
    | (st', some e) => [.finish e st']

/-- Spec: the events of a pipeline. -/
def spec {σ} : List (Decl σ) → Nat → σ → List (Event σ)
  | [], _, st => [.finish 0 st]
  | .single h a :: ds, k, st => specCalls k h (spec ds (k + 1)) [a] st
  | .cond p h a :: ds, k, st =>
    if p (.val a) st then specCalls k h (spec ds (k + 1)) [a] st else spec ds (k + 1) st
  | .foreach h args :: ds, k, st => specCalls k h (spec ds (k + 1)) args st

/-- What remains to happen from a machine state between two runs. -/
inductive Pending {σ} (ds : List (Decl σ)) : PState σ → List (Event σ) → Prop
  | fin (p) : p.queued = true → p.finish = true → Pending ds p [.finish p.error p.st]
  | run (p) (done rest : List (Decl σ)) : p.queued = true → p.finish = false → p.error = 0 →
      p.nextArg = 0 → ds = done ++ rest → p.nextStep = done.length →
      Pending ds p (spec rest p.nextStep p.st)
  | args (p) (done rest : List (Decl σ)) (h : Hndl σ) (as bs : List Nat) :
      p.queued = true → p.finish = false → p.error = 0 →
      ds = done ++ .foreach h (as ++ bs) :: rest → p.nextStep = done.length →
      p.nextArg = as.length →
      Pending ds p (specCalls p.nextStep h (spec rest (p.nextStep + 1)) bs p.st)
  | over (p) : p.queued = false → Pending ds p []

theorem compile_get {σ} (ds done rest : List (Decl σ)) (d : Decl σ) (h : ds = done ++ d :: rest) :
    done.length < (compile ds).length ∧ (compile ds)[done.length]? = some d.toStep := by
  subst h
  constructor
  · simp [compile]
  · simp [compile]

theorem compile_end {σ} (ds : List (Decl σ)) :
    ds.length < (compile ds).length ∧ (compile ds)[ds.length]? = some .term := by
  constructor
  · simp [compile]
  · simp [compile]

/-- The loop, with the array access as an equation. -/
theorem loop_eq {σ} (steps : List (PStep σ)) (p : PState σ) (s : PStep σ)
    (h : steps[p.nextStep]? = some s) :
    loop steps p =
      match s with
      | .single h a => some (call { p with nextStep := p.nextStep + 1 } p.nextStep h a)
      | .cond pr h a =>
        let p' := { p with nextStep := p.nextStep + 1 }
        if pr a p'.st then some (call p' p.nextStep h a) else loop steps p'
      | .foreach h args =>
        match args[p.nextArg]? with
        | none => none
        | some .term => loop steps { p with nextArg := 0, nextStep := p.nextStep + 1 }
        | some a => some (call { p with nextArg := p.nextArg + 1 } p.nextStep h a)
      | .term => some { p with trace := p.trace ++ [.finish p.error p.st] } := by
  obtain ⟨hlt, hget⟩ := List.getElem?_eq_some_iff.1 h
  conv => lhs; unfold loop
  rw [dif_pos hlt, hget]
  cases s <;> rfl

/-- Result of one run: the trace grows by a prefix of what was pending. -/
def Progress {σ} (ds : List (Decl σ)) (tr0 : List (Event σ)) (evs : List (Event σ))
    (q : PState σ) : Prop :=
  ∃ pre post, evs = pre ++ post ∧ q.trace = tr0 ++ pre ∧ pre ≠ [] ∧ Pending ds q post

theorem call_progress {σ} (ds done rest : List (Decl σ)) (p : PState σ) (k : Nat) (h : Hndl σ)
    (a : Nat) (hf : p.finish = false) (he : p.error = 0)
    (ha : p.nextArg = 0) (hd : ds = done ++ rest) (hk : p.nextStep = done.length) :
    Progress ds p.trace (specCalls k h (spec rest p.nextStep) [a] p.st) (call p k h (.val a)) := by
  unfold Progress call
  cases hr : h (.val a) p.st with
  | mk st' o =>
    cases o with
    | none =>
      refine ⟨[.call k (.val a) p.st], spec rest p.nextStep st', ?_, rfl, by simp, ?_⟩
      · simp [specCalls, hr]
      · exact .run _ done rest rfl hf he ha hd hk
    | some e =>
      refine ⟨[.call k (.val a) p.st], [.finish e st'], ?_, rfl, by simp, ?_⟩
      · simp [specCalls, hr]
      · exact .fin _ rfl rfl

/-- The loop started at the beginning of declared step `rest`. -/
theorem loop_run {σ} (ds : List (Decl σ)) : ∀ (rest done : List (Decl σ)) (p : PState σ),
    p.finish = false → p.error = 0 → p.nextArg = 0 → p.queued = false →
    ds = done ++ rest → p.nextStep = done.length →
    ∃ q, loop (compile ds) p = some q ∧ Progress ds p.trace (spec rest p.nextStep p.st) q := by
  intro rest
  induction rest with
  | nil =>
    intro done p hf he ha hq hd hk
    have hget := (compile_end ds).2
    rw [show ds.length = p.nextStep by rw [hk, hd]; simp] at hget
    rw [loop_eq _ _ _ hget]
    refine ⟨_, rfl, [.finish 0 p.st], [], by simp [spec], by simp [he], by simp, .over _ hq⟩
  | cons d rest ih =>
    intro done p hf he ha hq hd hk
    have hget := (compile_get ds done rest d hd).2
    rw [← hk] at hget
    have hd' : ds = (done ++ [d]) ++ rest := by rw [hd]; simp
    have hk' : p.nextStep + 1 = (done ++ [d]).length := by simp [hk]
    rw [loop_eq _ _ _ hget]
    cases d with
    | single h a =>
      exact ⟨_, rfl, call_progress ds _ rest { p with nextStep := p.nextStep + 1 } p.nextStep h a
        hf he ha hd' hk'⟩
    | cond pr h a =>
      simp only [Decl.toStep]
      split
      · rename_i hp
        refine ⟨_, rfl, ?_⟩
        have := call_progress ds _ rest { p with nextStep := p.nextStep + 1 } p.nextStep h a
          hf he ha hd' hk'
        simpa only [spec, hp, if_true] using this
      · rename_i hp
        have := ih (done ++ [.cond pr h a]) { p with nextStep := p.nextStep + 1 } hf he ha hq hd' hk'
        simpa only [spec, hp, Bool.false_eq_true, if_false] using this
    | foreach h args =>
      simp only [Decl.toStep, ha]
      cases args with
      | nil =>
        have := ih (done ++ [.foreach h []]) { p with nextArg := 0, nextStep := p.nextStep + 1 }
          hf he rfl hq hd' hk'
        simpa [spec, specCalls] using this
      | cons a as =>
        simp only [List.map_cons, List.cons_append, List.getElem?_cons_zero]
        refine ⟨_, rfl, ?_⟩
        unfold Progress call
        cases hr : h (.val a) p.st with
        | mk st' o =>
          cases o with
          | none =>
            refine ⟨[.call p.nextStep (.val a) p.st],
              specCalls p.nextStep h (spec rest (p.nextStep + 1)) as st', ?_, rfl, by simp, ?_⟩
            · simp [spec, specCalls, hr]
            · exact .args _ done rest h [a] as rfl hf he hd hk rfl
          | some e =>
            refine ⟨[.call p.nextStep (.val a) p.st], [.finish e st'], ?_, rfl, by simp, ?_⟩
            · simp [spec, specCalls, hr]
            · exact .fin _ rfl rfl

theorem tick_fin {σ} (steps : List (PStep σ)) (p : PState σ) (hq : p.queued = true)
    (hf : p.finish = true) :
    tick steps p = some { p with queued := false, trace := p.trace ++ [.finish p.error p.st] } := by
  unfold tick
  rw [if_pos hq]
  exact if_pos hf

theorem tick_run {σ} (steps : List (PStep σ)) (p : PState σ) (hq : p.queued = true)
    (hf : p.finish = false) : tick steps p = loop steps { p with queued := false } := by
  unfold tick
  rw [if_pos hq]
  exact if_neg (by simp [hf])

/-- One run of the request makes progress through the pending events and never goes wrong. -/
theorem tick_progress {σ} (ds : List (Decl σ)) (p : PState σ) (evs : List (Event σ))
    (hp : Pending ds p evs) (hne : evs ≠ []) :
    ∃ q, tick (compile ds) p = some q ∧ Progress ds p.trace evs q := by
  cases hp with
  | over hq => exact absurd rfl hne
  | fin hq hf =>
    refine ⟨_, tick_fin _ _ hq hf, [.finish p.error p.st], [], by simp, by simp,
      by simp, .over _ rfl⟩
  | run done rest hq hf he ha hd hk =>
    have := loop_run ds rest done { p with queued := false } hf he ha rfl hd hk
    rw [tick_run _ _ hq hf]; exact this
  | args done rest h as bs hq hf he hd hk ha =>
    have hget := (compile_get ds done rest _ hd).2
    rw [← hk] at hget
    have hl := loop_eq (compile ds) { p with queued := false } _ hget
    rw [tick_run _ _ hq hf, hl]
    simp only [Decl.toStep]
    cases bs with
    | nil =>
      have hg : (List.map Arg.val (as ++ []) ++ [Arg.term])[p.nextArg]? = some .term := by
        simp [ha]
      rw [hg]
      simp only
      have := loop_run ds rest (done ++ [.foreach h (as ++ [])])
        { p with queued := false, nextArg := 0, nextStep := p.nextStep + 1 } hf he rfl rfl
        (by rw [hd]; simp) (by simp [hk])
      simpa [specCalls] using this
    | cons b bs =>
      have hg : (List.map Arg.val (as ++ b :: bs) ++ [Arg.term])[p.nextArg]? = some (.val b) := by
        simp [ha]
      rw [hg]
      simp only
      refine ⟨_, rfl, ?_⟩
      unfold Progress call
      cases hr : h (.val b) p.st with
      | mk st' o =>
        cases o with
        | none =>
          refine ⟨[.call p.nextStep (.val b) p.st],
            specCalls p.nextStep h (spec rest (p.nextStep + 1)) bs st', ?_, rfl, by simp, ?_⟩
          · simp [specCalls, hr]
          · refine .args _ done rest h (as ++ [b]) bs rfl hf he (by rw [hd]; simp) hk ?_
            simp [ha]
        | some e =>
          refine ⟨[.call p.nextStep (.val b) p.st], [.finish e st'], ?_, rfl, by simp, ?_⟩
          · simp [specCalls, hr]
          · exact .fin _ rfl rfl

theorem spec_ne {σ} (ds : List (Decl σ)) (k : Nat) (st : σ) : spec ds k st ≠ [] := by
  have hc : ∀ (h : Hndl σ) (rest : σ → List (Event σ)), (∀ s, rest s ≠ []) → ∀ as k st,
      specCalls k h rest as st ≠ [] := by
    intro h rest hr as k st
    cases as with
    | nil => exact hr st
    | cons a as => simp [specCalls]
  induction ds generalizing k st with
  | nil => simp [spec]
  | cons d ds ih =>
    cases d with
    | single h a => exact hc h _ (fun s => ih _ s) _ _ _
    | cond p h a =>
      simp only [spec]
      split
      · exact hc h _ (fun s => ih _ s) _ _ _
      · exact ih _ _
    | foreach h args => exact hc h _ (fun s => ih _ s) _ _ _

theorem ticks_over {σ} (steps : List (PStep σ)) (n : Nat) (p : PState σ) (h : p.queued = false) :
    ticks steps n p = some p := by
  induction n with
  | zero => rfl
  | succ n ih => simp [ticks, tick, h, ih]

theorem pending_nil {σ} (ds : List (Decl σ)) (p : PState σ) (h : Pending ds p []) :
    p.queued = false := by
  generalize he : ([] : List (Event σ)) = evs at h
  cases h with
  | over hq => exact hq
  | fin _ _ => cases he
  | run _ rest _ _ _ _ _ _ => exact absurd he.symm (spec_ne _ _ _)
  | args _ rest h as bs _ _ _ _ _ _ =>
    cases bs with
    | nil => exact absurd he.symm (by simpa [specCalls] using spec_ne _ _ _)
    | cons b bs => simp [specCalls] at he

theorem ticks_pending {σ} (ds : List (Decl σ)) : ∀ (n : Nat) (p : PState σ) (evs : List (Event σ)),
    Pending ds p evs →
    ∃ q pre post, ticks (compile ds) n p = some q ∧ evs = pre ++ post ∧ q.trace = p.trace ++ pre ∧
      Pending ds q post ∧ (post = [] ∨ n ≤ pre.length) := by
  intro n
  induction n with
  | zero => intro p evs hp; exact ⟨p, [], evs, rfl, rfl, by simp, hp, Or.inr (by simp)⟩
  | succ n ih =>
    intro p evs hp
    by_cases hne : evs = []
    · subst hne
      have hq := pending_nil ds p hp
      exact ⟨p, [], [], ticks_over _ _ _ hq, rfl, by simp, hp, Or.inl rfl⟩
    · obtain ⟨q, hq, pre, post, h1, h2, h3, h4⟩ := tick_progress ds p evs hp hne
      obtain ⟨q', pre', post', g1, g2, g3, g4, g5⟩ := ih q post h4
      refine ⟨q', pre ++ pre', post', by simp [ticks, hq, g1], by rw [h1, g2]; simp,
        by rw [g3, h2]; simp, g4, ?_⟩
      rcases g5 with g5 | g5
      · exact Or.inl g5
      · right
        have : 0 < pre.length := List.length_pos_iff.2 h3
        simp; omega

/-- C23: for every pipeline, all handlers/predicates and every starting private state, after any
number of runs the machine has not gone wrong and its events are a prefix of the specified ones;
and after enough runs they are exactly the specified events and nothing more ever happens. -/
theorem pipeline_refines {σ} (ds : List (Decl σ)) (st : σ) :
    (∀ n, ∃ q, ticks (compile ds) n (init st) = some q ∧ q.trace <+: spec ds 0 st) ∧
    (∀ n, (spec ds 0 st).length ≤ n →
      ∃ q, ticks (compile ds) n (init st) = some q ∧ q.trace = spec ds 0 st ∧ q.queued = false) := by
  have hp : Pending ds (init st) (spec ds 0 st) := .run _ [] ds rfl rfl rfl rfl rfl rfl
  refine ⟨fun n => ?_, fun n hn => ?_⟩
  · obtain ⟨q, pre, post, h1, h2, h3, _, _⟩ := ticks_pending ds n _ _ hp
    exact ⟨q, h1, post, by rw [h2, h3]; simp [init]⟩
  · obtain ⟨q, pre, post, h1, h2, h3, h4, h5⟩ := ticks_pending ds n _ _ hp
    have hpost : post = [] := by
      rcases h5 with h5 | h5
      · exact h5
      · have : pre.length + post.length = (spec ds 0 st).length := by rw [h2]; simp
        exact List.length_eq_zero_iff.1 (by omega)
    subst hpost
    exact ⟨q, h1, by rw [h2, h3]; simp [init], pending_nil ds q h4⟩

/-- Finish calls among events. -/
def Event.isFinish {σ} : Event σ → Bool
  | .finish .. => true
  | _ => false

/-- Step number of a handler call. -/
def Event.step {σ} : Event σ → Option Nat
  | .call k .. => some k
  | .finish .. => none

theorem spec_shape {σ} (ds : List (Decl σ)) : ∀ (k : Nat) (st : σ),
    ∃ calls e s', spec ds k st = calls ++ [.finish e s'] ∧
      (∀ x ∈ calls, x.isFinish = false) ∧
      (calls.filterMap Event.step).Pairwise (· ≤ ·) ∧
      (∀ j ∈ calls.filterMap Event.step, k ≤ j ∧ j < k + ds.length) := by
  have hc : ∀ (h : Hndl σ) (rest : σ → List (Event σ)) (k m : Nat),
      (∀ s, ∃ calls e s', rest s = calls ++ [.finish e s'] ∧ (∀ x ∈ calls, x.isFinish = false) ∧
        (calls.filterMap Event.step).Pairwise (· ≤ ·) ∧
        (∀ j ∈ calls.filterMap Event.step, k + 1 ≤ j ∧ j < k + 1 + m)) →
      ∀ as st, ∃ calls e s', specCalls k h rest as st = calls ++ [.finish e s'] ∧
        (∀ x ∈ calls, x.isFinish = false) ∧
        (calls.filterMap Event.step).Pairwise (· ≤ ·) ∧
        (∀ j ∈ calls.filterMap Event.step, k ≤ j ∧ j < k + (m + 1)) := by
    intro h rest k m hr as
    induction as with
    | nil =>
      intro st
      obtain ⟨c, e, s', h1, h2, h3, h4⟩ := hr st
      exact ⟨c, e, s', h1, h2, h3, fun j hj => by have := h4 j hj; omega⟩
    | cons a as ih =>
      intro st
      simp only [specCalls]
      cases hh : h (.val a) st with
      | mk st' o =>
        cases o with
        | none =>
          obtain ⟨c, e, s', h1, h2, h3, h4⟩ := ih st'
          refine ⟨.call k (.val a) st :: c, e, s', by simp [h1], ?_, ?_, ?_⟩
          · intro x hx
            rcases List.mem_cons.1 hx with rfl | hx
            · rfl
            · exact h2 x hx
          · simp only [List.filterMap_cons, Event.step, List.pairwise_cons]
            exact ⟨fun j hj => (h4 j hj).1, h3⟩
          · intro j hj
            simp only [List.filterMap_cons, Event.step, List.mem_cons] at hj
            rcases hj with rfl | hj
            · omega
            · exact h4 j hj
        | some e =>
          refine ⟨[.call k (.val a) st], e, st', rfl, by simp [Event.isFinish], by simp [Event.step], ?_⟩
          simp [Event.step]
  induction ds with
  | nil => intro k st; exact ⟨[], 0, st, rfl, by simp, by simp, by simp⟩
  | cons d ds ih =>
    intro k st
    cases d with
    | single h a => exact hc h _ k ds.length (fun s => ih (k + 1) s) [a] st
    | cond p h a =>
      simp only [spec]
      split
      · exact hc h _ k ds.length (fun s => ih (k + 1) s) [a] st
      · obtain ⟨c, e, s', h1, h2, h3, h4⟩ := ih (k + 1) st
        exact ⟨c, e, s', h1, h2, h3, fun j hj => by have := h4 j hj; simp; omega⟩
    | foreach h args => exact hc h _ k ds.length (fun s => ih (k + 1) s) args st

/-- C23, readable consequence: a run to the end calls handlers of steps in non-decreasing order of
declaration, then calls finish exactly once, last. -/
theorem finish_exactly_once {σ} (ds : List (Decl σ)) (st : σ) (n : Nat)
    (hn : (spec ds 0 st).length ≤ n) :
    ∃ q calls e s', ticks (compile ds) n (init st) = some q ∧ q.trace = calls ++ [.finish e s'] ∧
      (∀ x ∈ calls, x.isFinish = false) ∧ (calls.filterMap Event.step).Pairwise (· ≤ ·) := by
  obtain ⟨q, h1, h2, _⟩ := (pipeline_refines ds st).2 n hn
  obtain ⟨c, e, s', g1, g2, g3, _⟩ := spec_shape ds 0 st
  exact ⟨q, c, e, s', h1, by rw [h2, g1], g2, g3⟩

/-! Non-vacuity: single step, a foreach over two arguments whose second fails, and a step that is
therefore never called. State counts calls. -/
def exDecl : List (Decl Nat) :=
  [.single (fun _ s => (s + 1, none)) 7,
   .cond (fun _ s => s = 5) (fun _ s => (s + 100, none)) 0,
   .foreach (fun a s => (s + 1, if a = .val 4 then some (-22) else none)) [3, 4, 5],
   .single (fun _ s => (s + 1000, none)) 1]

example : spec exDecl 0 0 =
    [.call 0 (.val 7) 0, .call 2 (.val 3) 1, .call 2 (.val 4) 2, .finish (-22) 3] := rfl

end Verif.Pipeline
