import Verif.Props.CleanerSplit

/-! Property C18: a sector is marked clean only after its contents reached the core volume and the
core volume was flushed; a request with any failed I/O marks nothing clean. -/

namespace Verif.Cleaner

/-! ### Specification, on histories only -/

/-- Sector `t` of core line `k` of core `c` was written with `v`, and later the core was flushed. -/
def WrittenBack (log : List Ev) (c k t : Nat) (v : Int) : Prop :=
  ∃ a b d, log = a ++ Ev.wr c k t v :: (b ++ Ev.fl c :: d)

/-- Whenever a sector is marked clean, its contents at that moment had been written to the place it is
mapped to, and a flush succeeded after that. -/
def CleanAfterWriteback (log : List Ev) : Prop :=
  ∀ pre post l t c k v, log = pre ++ Ev.cln l t c k v :: post → WrittenBack pre c k t v

/-- A request with a failed I/O does not mark anything clean, neither before nor after. -/
def NoCleanIfFailed (log : List Ev) : Prop :=
  Ev.fail ∈ log → ∀ l t c k v, Ev.cln l t c k v ∉ log

/-! ### Proof -/

theorem WrittenBack.mono {log : List Ev} {c k t : Nat} {v : Int} (h : WrittenBack log c k t v)
    (m : List Ev) : WrittenBack (log ++ m) c k t v := by
  obtain ⟨a, b, d, rfl⟩ := h
  exact ⟨a, b, d ++ m, by simp⟩

theorem writtenBack_of_mem {log : List Ev} {c k t : Nat} {v : Int} (h : Ev.wr c k t v ∈ log) :
    WrittenBack (log ++ [Ev.fl c]) c k t v := by
  obtain ⟨a, b, rfl⟩ := List.append_of_mem h
  exact ⟨a, b, [], by simp⟩

theorem CleanAfterWriteback.append {log m : List Ev} (h : CleanAfterWriteback log)
    (hm : ∀ l t c k v, Ev.cln l t c k v ∈ m → WrittenBack log c k t v) :
    CleanAfterWriteback (log ++ m) := by
  intro pre post l t c k v e
  rcases List.append_eq_append_iff.1 e with ⟨x, e1, e2⟩ | ⟨x, e1, e2⟩
  · have : Ev.cln l t c k v ∈ m := by rw [e2]; simp
    rw [e1]
    exact (hm l t c k v this).mono x
  · cases x with
    | nil =>
      simp at e1 e2
      have : Ev.cln l t c k v ∈ m := by rw [← e2]; simp
      rw [← e1]
      exact hm l t c k v this
    | cons y x =>
      simp only [List.cons_append, List.cons.injEq] at e2
      exact h pre x l t c k v (by rw [e1, e2.1])

/-- Entry `i` has been submitted to the core. -/
def subd (s : State) (i : Nat) : Prop :=
  match s.phase with
  | .submit j => i < j
  | .write | .flush | .update _ => True
  | _ => False

/-- Entry `i` has to be cleaned and nothing went wrong with it. -/
def act (s : State) (i : Nat) : Prop :=
  i < s.n ∧ (s.ent i).flush = true ∧ (s.ent i).invalid = false

/-- Sector `t` of the line of entry `i` is dirty. -/
def dty (S : Nat) (s : State) (i t : Nat) : Prop :=
  t < S ∧ (s.lines (s.ent i).line).dirty t = true

/-- The invariant. -/
structure Inv (S : Nat) (s : State) : Prop where
  wf : ∀ l t, (s.lines l).dirty t = true → (s.lines l).valid t = true
  core : ∀ i < s.n, (s.ent i).core = s.core
  early : (s.phase = .wait ∨ ∃ i, s.phase = .check i) → s.pend = [] ∧ s.err = false ∧ s.log = [] ∧
    s.merr = false ∧ ∀ i < s.n, (s.ent i).invalid = false
  wt : s.phase = .wait → ∀ i < s.n, (s.ent i).flush = false
  mapd : s.held → ∀ i < s.n, (s.ent i).flush = true →
    (s.lines (s.ent i).line).core = s.core ∧ (s.lines (s.ent i).line).cl = (s.ent i).cl
  pr : s.phase = .read → ∀ p ∈ s.pend, ∃ i, p = .rd i
  pw : (s.phase = .write ∨ ∃ j, s.phase = .submit j) → ∀ p ∈ s.pend,
    ∃ i b e, p = .wr i b e ∧ act s i ∧ ∀ t, b ≤ t → t < e →
      (s.lines (s.ent i).line).valid t = true
  pf : s.phase = .flush → ∀ p ∈ s.pend, p = .fl
  pu : (s.phase = .done ∨ ∃ j, s.phase = .update j) → s.pend = [] ∧ s.err = false
  buf : s.phase = .read → ∀ i, act s i → s.err = false → .rd i ∉ s.pend →
    (s.ent i).buf = s.data (s.ent i).line
  buf2 : (s.phase = .write ∨ ∃ j, s.phase = .submit j) → ∀ i, act s i →
    (s.ent i).buf = s.data (s.ent i).line
  wrt : ∀ i, subd s i → act s i → s.err = false → ∀ t, dty S s i t →
    Ev.wr s.core (s.ent i).cl t (s.data (s.ent i).line t) ∈ s.log ∨
    ∃ b e, .wr i b e ∈ s.pend ∧ b ≤ t ∧ t < e
  flp : ((s.phase = .flush ∧ s.pend = [] ∧ s.err = false) ∨ ∃ j, s.phase = .update j) →
    ∀ i, act s i → ∀ t, dty S s i t →
    WrittenBack s.log s.core (s.ent i).cl t (s.data (s.ent i).line t)
  cl0 : (s.phase ≠ .done ∧ ∀ j, s.phase ≠ .update j) → ∀ l t c k v, Ev.cln l t c k v ∉ s.log
  fl : Ev.fail ∈ s.log → (s.err = true ∨ ∀ i < s.n, (s.ent i).flush = true → (s.ent i).invalid = true) ∧
    (s.err = true ∨ s.merr = true)
  spec : CleanAfterWriteback s.log
  nf : NoCleanIfFailed s.log
  cleaned : ∀ j, s.phase = .update j → ∀ i, i < j → act s i → ∀ t, ¬ dty S s i t

theorem inv_start (S : Nat) (s : State) (h : Start s) : Inv S s := by
  obtain ⟨h1, h2, h3, h4, h5, h6, h7⟩ := h
  constructor <;> (try simp only [h1, h2, h3, h4, h5, subd, State.held, NoCleanIfFailed]) <;>
    (try grind)
  intro pre post l t c k v e
  simp at e

/-- Sectors covered by a write cover the dirty sectors of the line. -/
theorem ranges_cover (S : Nat) (v d : Nat → Bool) (h : ∀ t, d t = true → v t = true) (t : Nat)
    (ht : t < S) (hd : d t = true) : ∃ r ∈ ranges S v d, r.1 ≤ t ∧ t < r.2 := by
  have := written_once S v d h t
  rw [if_pos ⟨ht, .inl hd⟩] at this
  unfold times at this
  have : 0 < ((ranges S v d).filter (fun r => decide (r.1 ≤ t ∧ t < r.2))).length := by omega
  obtain ⟨r, hr⟩ := List.exists_mem_of_length_pos this
  obtain ⟨a, b⟩ := List.mem_filter.1 hr
  exact ⟨r, a, by simpa using b⟩

/-- Only valid sectors are in the ranges. -/
theorem ranges_valid (S : Nat) (v d : Nat → Bool) (h : ∀ t, d t = true → v t = true)
    (r : Nat × Nat) (hr : r ∈ ranges S v d) (t : Nat) (h1 : r.1 ≤ t) (h2 : t < r.2) :
    v t = true := by
  have := written_once S v d h t
  have hp : 0 < times (ranges S v d) t := by
    unfold times
    exact List.length_pos_of_mem (List.mem_filter.2 ⟨hr, by simpa using ⟨h1, h2⟩⟩)
  split at this
  · next q =>
    rcases q.2 with e | e
    · exact h t e
    · exact e.1 t q.1
  · omega

theorem inv_env (S : Nat) (s : State) (h : Inv S s) (L : Nat → Line) (D : Nat → Nat → Int)
    (h1 : ∀ l t, (L l).dirty t = true → (L l).valid t = true)
    (h2 : s.held → ∀ i < s.n, ∀ l, l = (s.ent i).line →
        D l = s.data l ∧ (L l).core = (s.lines l).core ∧ (L l).cl = (s.lines l).cl ∧
        (L l).valid = (s.lines l).valid ∧
        ∀ t, (L l).dirty t = true → (s.lines l).dirty t = true) :
    Inv S { s with lines := L, data := D } := by
  have hh : ∀ i, (s.phase ≠ .wait ∧ s.phase ≠ .done) → act s i →
      D (s.ent i).line = s.data (s.ent i).line ∧ ∀ t, dty S { s with lines := L, data := D } i t →
        dty S s i t := by
    intro i hp ha
    obtain ⟨a, _, _, _, b⟩ := h2 hp i ha.1 _ rfl
    exact ⟨a, fun t ht => ⟨ht.1, b t ht.2⟩⟩
  refine { h with wf := h1, mapd := ?_, pw := ?_, buf := ?_, buf2 := ?_, wrt := ?_, flp := ?_, cleaned := ?_ }
  · intro hd i hi hf
    obtain ⟨_, b, c, _⟩ := h2 hd i hi _ rfl
    have := h.mapd hd i hi hf
    simp only [b, c, this]; simp
  · intro hp p hm
    obtain ⟨i, b, e, q, ha, hv⟩ := h.pw hp p hm
    refine ⟨i, b, e, q, ha, fun t x y => ?_⟩
    obtain ⟨_, _, _, d, _⟩ := h2 (by
      simp only at hp
      rcases hp with q | ⟨_, q⟩ <;> simp [State.held, q]) i ha.1 _ rfl
    simp only [d]
    exact hv t x y
  · intro hp i ha he hm
    have := h.buf hp i ha he hm
    simp only at hp ⊢
    rw [this, (hh i (by simp [hp]) ha).1]
  · intro hp i ha
    have := h.buf2 hp i ha
    simp only at hp ⊢
    rw [this, (hh i (by rcases hp with e | ⟨_, e⟩ <;> simp [e]) ha).1]
  · intro i hs ha he t hd
    have hp : s.phase ≠ .wait ∧ s.phase ≠ .done := by
      constructor <;> intro e <;> simp [subd, e] at hs
    have hx := hh i hp ha
    simp only [hx.1]
    exact h.wrt i hs ha he t (hx.2 t hd)
  · intro hs i ha t hd
    have hp : s.phase ≠ .wait ∧ s.phase ≠ .done := by
      constructor <;> intro e <;> simp [e] at hs
    have hx := hh i hp ha
    simp only [hx.1]
    exact h.flp hs i ha t (hx.2 t hd)
  · intro j hs i hi ha t hd
    have hp : s.phase ≠ .wait ∧ s.phase ≠ .done := by
      constructor <;> intro e <;> simp [e] at hs
    exact h.cleaned j hs i hi ha t ((hh i hp ha).2 t hd)

/-- The log got something that is neither a clean mark nor a failure. -/
theorem spec_app {log m : List Ev} (h : CleanAfterWriteback log)
    (hm : ∀ l t c k v, Ev.cln l t c k v ∉ m) : CleanAfterWriteback (log ++ m) :=
  h.append (fun l t c k v e => absurd e (hm l t c k v))

theorem nf_app {log m : List Ev} (h : NoCleanIfFailed log)
    (hm : ∀ l t c k v, Ev.cln l t c k v ∉ m) (hf : Ev.fail ∉ m) : NoCleanIfFailed (log ++ m) := by
  intro e l t c k v hc
  have e : Ev.fail ∈ log := by simpa [hf] using e
  have hc : Ev.cln l t c k v ∈ log := by simpa [hm] using hc
  exact h e l t c k v hc

theorem wrEvs_no (s : State) (i b e : Nat) :
    (∀ l t c k v, Ev.cln l t c k v ∉ wrEvs s i b e) ∧ Ev.fail ∉ wrEvs s i b e := by
  constructor
  · intro l t c k v h
    simp [wrEvs] at h
  · intro h; simp [wrEvs] at h

theorem inv_chk (S : Nat) (s : State) (h : Inv S s) (i : Nat) (h1 : s.phase = .check i) :
    Inv S { s with ent := s.setEnt i (checkEnt S s i), phase := .check (i + 1) } := by
  obtain ⟨e1, e2, e3, e4, e5⟩ := h.early (.inr ⟨i, h1⟩)
  have hf : ∀ j, (s.setEnt i (checkEnt S s i) j).core = (s.ent j).core ∧
      (s.setEnt i (checkEnt S s i) j).cl = (s.ent j).cl ∧
      (s.setEnt i (checkEnt S s i) j).line = (s.ent j).line ∧
      (s.setEnt i (checkEnt S s i) j).invalid = (s.ent j).invalid := by
    intro j; unfold State.setEnt checkEnt; grind
  have hm := h.mapd (by simp [State.held, h1])
  have hc := h.core
  constructor
  case wf => exact h.wf
  case core => intro j hj; simp only [hf]; exact h.core j hj
  case early => intro _; simp only [hf]; exact ⟨e1, e2, e3, e4, e5⟩
  case mapd =>
    intro _ j hj hfl
    simp only [hf]
    unfold State.setEnt checkEnt at hfl
    grind
  case spec => exact h.spec
  case nf => exact h.nf
  all_goals simp [subd, e3]

theorem inv_done_early (S : Nat) (s : State) (h : Inv S s) (i : Nat) (h1 : s.phase = .check i) :
    Inv S { s with phase := .done } := by
  obtain ⟨e1, e2, e3, e4, e5⟩ := h.early (.inr ⟨i, h1⟩)
  constructor
  case wf => exact h.wf
  case core => exact h.core
  case spec => exact h.spec
  case nf => exact h.nf
  all_goals simp [subd, State.held, e1, e2, e3]

theorem inv_fireCache (S : Nat) (s : State) (h : Inv S s) (i : Nat) (h1 : s.phase = .check i) :
    Inv S { s with phase := .read, pend := readParts s, err := false } := by
  obtain ⟨e1, e2, e3, e4, e5⟩ := h.early (.inr ⟨i, h1⟩)
  have hm := h.mapd (by simp [State.held, h1])
  constructor
  case wf => exact h.wf
  case core => exact h.core
  case mapd => intro _; exact hm
  case spec => exact h.spec
  case nf => exact h.nf
  case pr => intro _ p hp; obtain ⟨i, _, rfl⟩ := List.mem_map.1 hp; exact ⟨i, rfl⟩
  case buf =>
    intro _ i ha _ hn
    refine absurd ?_ hn
    simp [readParts]
    exact ⟨ha.1, ha.2.1⟩
  all_goals simp [subd, e3]

theorem inv_rdOk (S : Nat) (s : State) (h : Inv S s) (i : Nat) (h1 : s.phase = .read) :
    Inv S { s with
        ent := s.setEnt i { s.ent i with buf := s.data (s.ent i).line }
        pend := s.pend.erase (.rd i) } := by
  have hf : ∀ j, (s.setEnt i { s.ent i with buf := s.data (s.ent i).line } j).core = (s.ent j).core ∧
      (s.setEnt i { s.ent i with buf := s.data (s.ent i).line } j).cl = (s.ent j).cl ∧
      (s.setEnt i { s.ent i with buf := s.data (s.ent i).line } j).line = (s.ent j).line ∧
      (s.setEnt i { s.ent i with buf := s.data (s.ent i).line } j).flush = (s.ent j).flush ∧
      (s.setEnt i { s.ent i with buf := s.data (s.ent i).line } j).invalid = (s.ent j).invalid := by
    intro j; unfold State.setEnt; grind
  constructor
  case wf => exact h.wf
  case core => intro j hj; simp only [hf]; exact h.core j hj
  case mapd => intro _ j hj; simp only [hf]; exact h.mapd (by simp [State.held, h1]) j hj
  case spec => exact h.spec
  case nf => exact h.nf
  case pr => intro _ p hp; exact h.pr h1 p (List.mem_of_mem_erase hp)
  case cl0 => intro _; exact h.cl0 (by simp [h1])
  case fl => simp only [hf]; exact h.fl
  case buf =>
    intro _ j ha he hn
    simp only [hf]
    simp only [act, hf] at ha
    simp only at hn
    unfold State.setEnt
    by_cases q : j = i
    · subst q; simp
    · rw [if_neg q]
      refine h.buf h1 j ha he (fun hm => hn ?_)
      exact (List.mem_erase_of_ne (by simpa using q)).2 hm
  all_goals simp [subd, h1]

theorem inv_fail (S : Nat) (s : State) (h : Inv S s) (p : Part) (h1 : p ∈ s.pend) :
    Inv S { s with pend := s.pend.erase p, err := true, log := s.log ++ [.fail] } := by
  have hne : s.phase ≠ .done ∧ ∀ j, s.phase ≠ .update j := by
    constructor
    · intro e; have := (h.pu (.inl e)).1; simp [this] at h1
    · intro j e; have := (h.pu (.inr ⟨j, e⟩)).1; simp [this] at h1
  have hc := h.cl0 hne
  have hne2 : ¬ (s.phase = .wait ∨ ∃ i, s.phase = .check i) := by
    intro e; have := (h.early e).1; simp [this] at h1
  constructor
  case wf => exact h.wf
  case core => exact h.core
  case early => intro e; exact absurd e hne2
  case wt => intro e; exact absurd (.inl e) hne2
  case mapd => exact h.mapd
  case pr => intro e q hq; exact h.pr e q (List.mem_of_mem_erase hq)
  case pw => intro e q hq; exact h.pw e q (List.mem_of_mem_erase hq)
  case pf => intro e q hq; exact h.pf e q (List.mem_of_mem_erase hq)
  case pu =>
    intro e
    rcases e with e | ⟨j, e⟩
    · exact absurd e hne.1
    · exact absurd e (hne.2 j)
  case buf => simp
  case buf2 => exact h.buf2
  case wrt => simp
  case flp =>
    intro e
    rcases e with ⟨_, _, e⟩ | ⟨j, e⟩
    · simp at e
    · exact absurd e (hne.2 j)
  case cl0 => intro _; simpa using hc
  case fl => simp
  case spec => exact spec_app h.spec (by simp)
  case nf => intro _; simpa using hc
  case cleaned => intro j e; exact absurd e (hne.2 j)

theorem failAll_same (s : State) (j : Nat) : (failAll s j).core = (s.ent j).core ∧
    (failAll s j).cl = (s.ent j).cl ∧ (failAll s j).line = (s.ent j).line ∧
    (failAll s j).flush = (s.ent j).flush ∧ (failAll s j).buf = (s.ent j).buf := by
  simp [failAll]

theorem failAll_invalid (s : State) (j : Nat) (hf : (s.ent j).flush = true)
    (h : (failAll s j).invalid = false) : s.err = false ∧ (s.ent j).invalid = false := by
  simp [failAll, hf] at h; exact ⟨h.2, h.1⟩

theorem act_next (s : State) (p : Phase) (ps : List Part) (i : Nat) (h : act (s.next p ps) i) :
    act s i ∧ s.err = false := by
  obtain ⟨a, b, c⟩ := h
  simp only [State.next, (failAll_same s i).2.2.2.1] at b c
  obtain ⟨d, e⟩ := failAll_invalid s i b c
  exact ⟨⟨a, b, e⟩, d⟩

theorem fl_next (s : State) (p : Phase) (ps : List Part)
    (h : Ev.fail ∈ s.log → (s.err = true ∨ ∀ i < s.n, (s.ent i).flush = true → (s.ent i).invalid = true) ∧
      (s.err = true ∨ s.merr = true)) :
    Ev.fail ∈ (s.next p ps).log → ((s.next p ps).err = true ∨
      ∀ i < (s.next p ps).n, ((s.next p ps).ent i).flush = true → ((s.next p ps).ent i).invalid = true) ∧
      ((s.next p ps).err = true ∨ (s.next p ps).merr = true) := by
  intro e
  have := h e
  simp only [State.next, failAll]
  grind

theorem inv_rdEnd (S : Nat) (s : State) (h : Inv S s) (h1 : s.phase = .read) (h2 : s.pend = []) :
    Inv S (s.next (.submit 0) []) := by
  constructor
  case wf => exact h.wf
  case core => intro j hj; exact h.core j hj
  case mapd => intro _ j hj; exact h.mapd (by simp [State.held, h1]) j hj
  case spec => exact h.spec
  case nf => exact h.nf
  case cl0 => intro _; exact h.cl0 (by simp [h1])
  case fl => exact fl_next s _ _ h.fl
  case buf2 =>
    intro _ i ha
    obtain ⟨a, e⟩ := act_next s _ _ i ha
    exact h.buf h1 i a e (by simp [h2])
  all_goals simp [subd, State.next]

theorem inv_sub (S : Nat) (s : State) (h : Inv S s) (i : Nat) (h1 : s.phase = .submit i)
    (h2 : i < s.n) :
    Inv S { s with phase := .submit (i + 1), pend := s.pend ++ writeParts S s i } := by
  constructor
  case wf => exact h.wf
  case core => intro j hj; exact h.core j hj
  case mapd => intro _ j hj; exact h.mapd (by simp [State.held, h1]) j hj
  case spec => exact h.spec
  case nf => exact h.nf
  case cl0 => intro _; exact h.cl0 (by simp [h1])
  case fl => exact h.fl
  case pw =>
    intro _ p hp
    rcases List.mem_append.1 hp with hp | hp
    · exact h.pw (.inr ⟨i, h1⟩) p hp
    · unfold writeParts at hp
      split at hp
      · next q =>
        obtain ⟨r, hr, rfl⟩ := List.mem_map.1 hp
        exact ⟨i, r.1, r.2, rfl, ⟨h2, q.1, by simpa using q.2⟩,
          fun t x y => ranges_valid S _ _ (h.wf (s.ent i).line) r hr t x y⟩
      · simp at hp
  case buf2 => intro _ j ha; exact h.buf2 (.inr ⟨i, h1⟩) j ha
  case wrt =>
    intro j hs ha he t hd
    simp only [subd] at hs
    by_cases q : j = i
    · subst q
      right
      obtain ⟨r, hr, hr2⟩ := ranges_cover S _ _ (h.wf (s.ent j).line) t hd.1 hd.2
      refine ⟨r.1, r.2, List.mem_append.2 (.inr ?_), hr2⟩
      unfold writeParts
      rw [if_pos ⟨ha.2.1, by simpa using ha.2.2⟩]
      exact List.mem_map.2 ⟨r, hr, rfl⟩
    · rcases h.wrt j (by simp [subd, h1]; omega) ha he t hd with e | ⟨b, e, hm, hx⟩
      · exact .inl e
      · exact .inr ⟨b, e, List.mem_append.2 (.inl hm), hx⟩
  all_goals simp [subd]

theorem inv_subEnd (S : Nat) (s : State) (h : Inv S s) (h1 : s.phase = .submit s.n) :
    Inv S { s with phase := .write } := by
  constructor
  case wf => exact h.wf
  case core => intro j hj; exact h.core j hj
  case mapd => intro _ j hj; exact h.mapd (by simp [State.held, h1]) j hj
  case spec => exact h.spec
  case nf => exact h.nf
  case cl0 => intro _; exact h.cl0 (by simp [h1])
  case fl => exact h.fl
  case pw => intro _ p hp; exact h.pw (.inr ⟨_, h1⟩) p hp
  case buf2 => intro _ j ha; exact h.buf2 (.inr ⟨_, h1⟩) j ha
  case wrt => intro j _ ha; exact h.wrt j (by simp [subd, h1]; exact ha.1) ha
  all_goals simp

theorem pend_phase (S : Nat) (s : State) (h : Inv S s) (p : Part) (hp : p ∈ s.pend) :
    (s.phase = .read ∧ ∃ i, p = .rd i) ∨
    ((s.phase = .write ∨ ∃ j, s.phase = .submit j) ∧ ∃ i b e, p = .wr i b e) ∨
    (s.phase = .flush ∧ p = .fl) := by
  have a := h.early
  have b := h.pu
  rcases hph : s.phase with _ | i | _ | i | _ | _ | i | _
  · have := (a (.inl hph)).1; simp [this] at hp
  · have := (a (.inr ⟨_, hph⟩)).1; simp [this] at hp
  · exact .inl ⟨rfl, h.pr hph p hp⟩
  · obtain ⟨i, b, e, q, _⟩ := h.pw (.inr ⟨_, hph⟩) p hp
    exact .inr (.inl ⟨.inr ⟨_, rfl⟩, i, b, e, q⟩)
  · obtain ⟨i, b, e, q, _⟩ := h.pw (.inl hph) p hp
    exact .inr (.inl ⟨.inl rfl, i, b, e, q⟩)
  · exact .inr (.inr ⟨rfl, h.pf hph p hp⟩)
  · have := (b (.inr ⟨_, hph⟩)).1; simp [this] at hp
  · have := (b (.inl hph)).1; simp [this] at hp

theorem inv_wrOk (S : Nat) (s : State) (h : Inv S s) (i b e : Nat) (h1 : .wr i b e ∈ s.pend) :
    Inv S { s with pend := s.pend.erase (.wr i b e), log := s.log ++ wrEvs s i b e } := by
  have hp : s.phase = .write ∨ ∃ j, s.phase = .submit j := by
    rcases pend_phase S s h _ h1 with ⟨_, _, q⟩ | ⟨q, _⟩ | ⟨_, q⟩
    · cases q
    · exact q
    · cases q
  obtain ⟨i', b', e', q, hact, _⟩ := h.pw hp _ h1
  cases q
  have hno := wrEvs_no s i b e
  have hcl := h.cl0 (by rcases hp with q | ⟨_, q⟩ <;> simp [q])
  constructor
  case wf => exact h.wf
  case core => intro j hj; exact h.core j hj
  case mapd => exact h.mapd
  case spec => exact spec_app h.spec hno.1
  case nf => exact nf_app h.nf hno.1 hno.2
  case cl0 =>
    intro _ l t c k v hm
    rcases List.mem_append.1 hm with hm | hm
    · exact hcl l t c k v hm
    · exact hno.1 l t c k v hm
  case fl =>
    intro hm
    refine h.fl ?_
    rcases List.mem_append.1 hm with hm | hm
    · exact hm
    · exact absurd hm hno.2
  case pw => intro _ p hpm; exact h.pw hp p (List.mem_of_mem_erase hpm)
  case buf2 => intro _; exact h.buf2 hp
  case wrt =>
    intro j hs ha he t hd
    rcases h.wrt j hs ha he t hd with q | ⟨b2, e2, hm, hx⟩
    · exact .inl (List.mem_append.2 (.inl q))
    · by_cases q : Part.wr j b2 e2 = .wr i b e
      · cases q
        left
        refine List.mem_append.2 (.inr ?_)
        unfold wrEvs
        refine List.mem_map.2 ⟨t, ?_, ?_⟩
        · rw [List.mem_range']; exact ⟨t - b, by omega, by omega⟩
        · rw [h.buf2 hp _ ha]
      · exact .inr ⟨b2, e2, (List.mem_erase_of_ne q).2 hm, hx⟩
  all_goals (rcases hp with q | ⟨_, q⟩ <;> simp [q])

theorem inv_wrEnd (S : Nat) (s : State) (h : Inv S s) (h1 : s.phase = .write) (h2 : s.pend = []) :
    Inv S (s.next .flush [.fl]) := by
  constructor
  case wf => exact h.wf
  case core => intro j hj; exact h.core j hj
  case mapd => intro _ j hj; exact h.mapd (by simp [State.held, h1]) j hj
  case spec => exact h.spec
  case nf => exact h.nf
  case cl0 => intro _; exact h.cl0 (by simp [h1])
  case fl => exact fl_next s _ _ h.fl
  case wrt =>
    intro i _ ha _ t hd
    obtain ⟨a, e⟩ := act_next s _ _ i ha
    rcases h.wrt i (by simp [subd, h1]) a e t hd with q | ⟨_, _, q, _⟩
    · exact .inl q
    · simp [h2] at q
  all_goals simp [State.next]

theorem inv_flOk (S : Nat) (s : State) (h : Inv S s) (h1 : .fl ∈ s.pend) :
    Inv S { s with pend := s.pend.erase .fl, log := s.log ++ [.fl s.core] } := by
  have hp : s.phase = .flush := by
    rcases pend_phase S s h _ h1 with ⟨_, _, q⟩ | ⟨_, _, _, _, q⟩ | ⟨q, _⟩
    · cases q
    · cases q
    · exact q
  have hcl := h.cl0 (by simp [hp])
  constructor
  case wf => exact h.wf
  case core => intro j hj; exact h.core j hj
  case mapd => exact h.mapd
  case spec => exact spec_app h.spec (by simp)
  case nf => exact nf_app h.nf (by simp) (by simp)
  case cl0 => intro _; simpa using hcl
  case fl => simpa using h.fl
  case pf => intro _ p hpm; exact h.pf hp p (List.mem_of_mem_erase hpm)
  case wrt =>
    intro j hs ha he t hd
    rcases h.wrt j hs ha he t hd with q | ⟨b2, e2, hm, hx⟩
    · exact .inl (List.mem_append.2 (.inl q))
    · have := h.pf hp _ hm; cases this
  case flp =>
    intro q i ha t hd
    rcases q with ⟨_, _, he⟩ | ⟨j, q⟩
    · rcases h.wrt i (by simp [subd, hp]) ha he t hd with q | ⟨b2, e2, hm, hx⟩
      · exact writtenBack_of_mem q
      · have := h.pf hp _ hm; cases this
    · simp [hp] at q
  all_goals simp [hp]

theorem inv_flEnd (S : Nat) (s : State) (h : Inv S s) (h1 : s.phase = .flush) (h2 : s.pend = []) :
    Inv S (s.next (.update 0) []) := by
  constructor
  case wf => exact h.wf
  case core => intro j hj; exact h.core j hj
  case mapd => intro _ j hj; exact h.mapd (by simp [State.held, h1]) j hj
  case spec => exact h.spec
  case nf => exact h.nf
  case cl0 => intro q; exact h.cl0 (by simp [h1])
  case fl => exact fl_next s _ _ h.fl
  case wrt =>
    intro i _ ha _ t hd
    obtain ⟨a, e⟩ := act_next s _ _ i ha
    rcases h.wrt i (by simp [subd, h1]) a e t hd with q | ⟨_, _, q, _⟩
    · exact .inl q
    · simp [h2] at q
  case flp =>
    intro _ i ha t hd
    obtain ⟨a, e⟩ := act_next s _ _ i ha
    exact h.flp (.inl ⟨h1, h2, e⟩) i a t hd
  case pu => intro _; simp [State.next]
  case cleaned =>
    intro j e i hi
    simp [State.next] at e
    omega
  all_goals simp [State.next]

theorem clnEvs_mem (S : Nat) (s : State) (l l' t c k : Nat) (v : Int)
    (h : Ev.cln l' t c k v ∈ clnEvs S s l) : l' = l ∧ t < S ∧ (s.lines l).dirty t = true ∧
    c = (s.lines l).core ∧ k = (s.lines l).cl ∧ v = s.data l t := by
  simp [clnEvs] at h
  grind

theorem inv_upd (S : Nat) (s : State) (h : Inv S s) (i : Nat) (h1 : s.phase = .update i)
    (h2 : i < s.n) (h3 : cleans S s i) :
    Inv S { s with
        lines := cleared S s (s.ent i).line
        log := s.log ++ clnEvs S s (s.ent i).line
        phase := .update (i + 1) } := by
  have hai : act s i := ⟨h2, h3.1, h3.2.1⟩
  have hmap := h.mapd (by simp [State.held, h1])
  have hfl : Ev.fail ∉ s.log := by
    intro e
    rcases (h.fl e).1 with q | q
    · have := (h.pu (.inr ⟨_, h1⟩)).2; simp [this] at q
    · have := q i h2 h3.1; simp [h3.2.1] at this
  have hf2 : Ev.fail ∉ clnEvs S s (s.ent i).line := by simp [clnEvs]
  have hl : ∀ l, ((cleared S s (s.ent i).line) l).core = (s.lines l).core ∧
      ((cleared S s (s.ent i).line) l).cl = (s.lines l).cl ∧
      ((cleared S s (s.ent i).line) l).valid = (s.lines l).valid ∧
      (∀ t, ((cleared S s (s.ent i).line) l).dirty t = true → (s.lines l).dirty t = true) ∧
      (l = (s.ent i).line → ∀ t < S, ((cleared S s (s.ent i).line) l).dirty t = false) := by
    intro l
    unfold cleared
    by_cases q : l = (s.ent i).line
    · subst q; simp; omega
    · simp [q]
  constructor
  case wf => intro l t q; rw [(hl l).2.2.1]; exact h.wf l t ((hl l).2.2.2.1 t q)
  case core => intro j hj; exact h.core j hj
  case mapd => intro _ j hj hfj; simp only [(hl _).1, (hl _).2.1]; exact hmap j hj hfj
  case pu => intro _; exact h.pu (.inr ⟨_, h1⟩)
  case wrt =>
    intro j _ ha he t hd
    rcases h.wrt j (by simp [subd, h1]) ha he t ⟨hd.1, (hl _).2.2.2.1 t hd.2⟩ with q | q
    · exact .inl (List.mem_append.2 (.inl q))
    · exact .inr q
  case flp =>
    intro _ j ha t hd
    exact (h.flp (.inr ⟨_, h1⟩) j ha t ⟨hd.1, (hl _).2.2.2.1 t hd.2⟩).mono _
  case fl =>
    intro e
    rcases List.mem_append.1 e with e | e
    · exact absurd e hfl
    · exact absurd e hf2
  case spec =>
    refine h.spec.append (fun l t c k v hm => ?_)
    obtain ⟨rfl, ht, hd, rfl, rfl, rfl⟩ := clnEvs_mem S s _ _ _ _ _ _ hm
    rw [(hmap i h2 h3.1).1, (hmap i h2 h3.1).2]
    exact h.flp (.inr ⟨_, h1⟩) i hai t ⟨ht, hd⟩
  case nf =>
    intro e
    rcases List.mem_append.1 e with e | e
    · exact absurd e hfl
    · exact absurd e hf2
  case cleaned =>
    intro j e k hk ha t hd
    have e : i + 1 = j := by simpa using e
    by_cases q : k = i
    · subst q
      have := (hl (s.ent k).line).2.2.2.2 rfl t hd.1
      have := hd.2
      simp_all
    · exact h.cleaned i h1 k (by omega) ha t ⟨hd.1, (hl _).2.2.2.1 t hd.2⟩
  all_goals simp

theorem inv_updSkip (S : Nat) (s : State) (h : Inv S s) (i : Nat) (h1 : s.phase = .update i)
    (h3 : ¬ cleans S s i) : Inv S { s with phase := .update (i + 1) } := by
  constructor
  case wf => exact h.wf
  case core => exact h.core
  case mapd => intro _; exact h.mapd (by simp [State.held, h1])
  case pu => intro _; exact h.pu (.inr ⟨_, h1⟩)
  case wrt => intro j _; exact h.wrt j (by simp [subd, h1])
  case flp => intro _; exact h.flp (.inr ⟨_, h1⟩)
  case fl => exact h.fl
  case spec => exact h.spec
  case nf => exact h.nf
  case cleaned =>
    intro j e k hk ha t hd
    have e : i + 1 = j := by simpa using e
    by_cases q : k = i
    · subst q
      exact h3 ⟨ha.2.1, ha.2.2, (anyB_iff _ _).2 ⟨t, hd.1, hd.2⟩⟩
    · exact h.cleaned i h1 k (by omega) ha t hd
  all_goals simp

theorem inv_finish (S : Nat) (s : State) (h : Inv S s) (i : Nat) (h1 : s.phase = .update i) :
    Inv S { s with phase := .done } := by
  constructor
  case wf => exact h.wf
  case core => exact h.core
  case pu => intro _; exact h.pu (.inr ⟨_, h1⟩)
  case fl => exact h.fl
  case spec => exact h.spec
  case nf => exact h.nf
  all_goals simp [State.held, subd]

theorem inv_step (S : Nat) (s t : State) (h : Inv S s) (st : Step S false s t) : Inv S t := by
  cases st with
  | env L D h1 h2 => exact inv_env S s h L D h1 h2
  | lock h1 =>
    have he := h.early (.inl h1)
    constructor
    case wf => exact h.wf
    case core => exact h.core
    case spec => exact h.spec
    case nf => exact h.nf
    case early => intro _; exact he
    case mapd => intro _ i hi hf; rw [h.wt h1 i hi] at hf; cases hf
    all_goals simp [subd, he.1, he.2.2.1]
  | chk i h1 h2 => exact inv_chk S s h i h1
  | nothing h1 h2 => exact inv_done_early S s h _ h1
  | fireCache h1 h2 => exact inv_fireCache S s h _ h1
  | rdOk i h1 h2 => exact inv_rdOk S s h i h1
  | fail p h1 => exact inv_fail S s h p h1
  | lost p q h1 => cases h1
  | rdEnd h1 h2 => exact inv_rdEnd S s h h1 h2
  | sub i h1 h2 => exact inv_sub S s h i h1 h2
  | subEnd h1 => exact inv_subEnd S s h h1
  | wrOk i b e h1 => exact inv_wrOk S s h i b e h1
  | wrEnd h1 h2 => exact inv_wrEnd S s h h1 h2
  | flOk h1 => exact inv_flOk S s h h1
  | flEnd h1 h2 => exact inv_flEnd S s h h1 h2
  | upd i h1 h2 h3 => exact inv_upd S s h i h1 h2 h3
  | updSkip i h1 h2 h3 => exact inv_updSkip S s h i h1 h3
  | finish h1 => exact inv_finish S s h _ h1

theorem inv_reach (S : Nat) (s : State) (h : Reach Start (Step S false) s) : Inv S s :=
  Reach.inv (P := Inv S) (fun s hs => inv_start S s hs) (fun s t hs st => inv_step S s t hs st) s h

/-! ### Theorems -/

/-- C18 (any number of entries, sectors, any interleaving of I/O completions and of other requests
changing lines, any error pattern). Partial: error codes of I/Os of the request are not lost, i.e.
its I/Os complete one at a time; `lost_error_cleans` shows what happens otherwise. -/
theorem clean_after_writeback_partial (S : Nat) (s : State) (h : Reach Start (Step S false) s) :
    CleanAfterWriteback s.log :=
  (inv_reach S s h).spec

/-- C18, errors (same generality): after any failed I/O the request marks nothing clean, and the
caller gets an error. -/
theorem error_keeps_dirty_partial (S : Nat) (s : State) (h : Reach Start (Step S false) s) :
    NoCleanIfFailed s.log ∧ (s.phase = .done → Ev.fail ∈ s.log → s.merr = true) := by
  have hi := inv_reach S s h
  refine ⟨hi.nf, fun hp hf => ?_⟩
  have := (hi.pu (.inl hp)).2
  simpa [this] using (hi.fl hf).2

/-- The request changes dirty bits only where its history says so (all other changes are made by
others): ties the histories above to the metadata. -/
theorem bits_change_logged (S : Nat) (racy : Bool) (s t : State) (st : Step S racy s t) :
    (∃ L D, t = { s with lines := L, data := D }) ∨
    t.data = s.data ∧ ∀ l u, (t.lines l).valid u = (s.lines l).valid u ∧
      (t.lines l).core = (s.lines l).core ∧ (t.lines l).cl = (s.lines l).cl ∧
      ((t.lines l).dirty u ≠ (s.lines l).dirty u →
        (t.lines l).dirty u = false ∧
        ∃ m, t.log = s.log ++ m ∧ Ev.cln l u (s.lines l).core (s.lines l).cl (s.data l u) ∈ m) := by
  cases st with
  | env L D _ _ => exact .inl ⟨L, D, rfl⟩
  | upd i h1 h2 h3 =>
    right
    refine ⟨rfl, fun l u => ?_⟩
    by_cases q : l = (s.ent i).line
    · subst q
      refine ⟨by simp [cleared], by simp [cleared], by simp [cleared], fun hne => ?_⟩
      have hu : u < S ∧ (s.lines (s.ent i).line).dirty u = true := by
        simp only [cleared, if_true] at hne
        by_cases q : u < S
        · simp [q] at hne; exact ⟨q, hne⟩
        · simp [q] at hne
      refine ⟨by simp [cleared, hu.1], _, rfl, ?_⟩
      simp only [clnEvs]
      exact List.mem_map.2 ⟨u, List.mem_filter.2 ⟨List.mem_range.2 hu.1, hu.2⟩, rfl⟩
    · simp [cleared, q]
  | _ => exact .inr ⟨rfl, fun l u => ⟨rfl, rfl, rfl, fun hne => absurd rfl hne⟩⟩

/-- C18, success (same generality): when a request is about to release its locks, every line it took
on and had no error with has no dirty sector. -/
theorem cleaned_when_finished (S : Nat) (s : State) (h : Reach Start (Step S false) s)
    (hp : s.phase = .update s.n) (i : Nat) (hi : i < s.n) (hf : (s.ent i).flush = true)
    (hv : (s.ent i).invalid = false) (t : Nat) (ht : t < S) :
    (s.lines (s.ent i).line).dirty t = false := by
  have := (inv_reach S s h).cleaned _ hp i hi ⟨hi, hf, hv⟩ t
  simp only [dty, not_and] at this
  simpa using this ht

/-- C18, contents (same generality): whatever a request writes to the core volume is, at that moment,
the valid contents of a sector of a cache line mapped to the place written. -/
theorem writes_current (S : Nat) (s t : State) (h : Reach Start (Step S false) s)
    (st : Step S false s t) (m : List Ev) (hm : t.log = s.log ++ m) (c k u : Nat) (v : Int)
    (hw : Ev.wr c k u v ∈ m) : ∃ l, (s.lines l).core = c ∧ (s.lines l).cl = k ∧
      (s.lines l).valid u = true ∧ s.data l u = v := by
  have hi := inv_reach S s h
  have nil : s.log = s.log ++ m → False := by
    intro e
    have : m = [] := by simpa using e
    simp [this] at hw
  cases st with
  | wrOk i b e h1 =>
    have hm : wrEvs s i b e = m := List.append_cancel_left hm
    subst hm
    obtain ⟨w, hw1, hw2⟩ := List.mem_map.1 hw
    cases hw2
    have hp : s.phase = .write ∨ ∃ j, s.phase = .submit j := by
      rcases pend_phase S s hi _ h1 with ⟨_, _, q⟩ | ⟨q, _⟩ | ⟨_, q⟩
      · cases q
      · exact q
      · cases q
    obtain ⟨i', b', e', q, ha, hv⟩ := hi.pw hp _ h1
    cases q
    have hmap := hi.mapd (by rcases hp with q | ⟨_, q⟩ <;> simp [State.held, q]) i ha.1 ha.2.1
    rw [List.mem_range'] at hw1
    obtain ⟨x, hx, rfl⟩ := hw1
    exact ⟨(s.ent i).line, hmap.1, hmap.2, hv _ (by omega) (by omega), by rw [hi.buf2 hp i ha]⟩
  | flOk h1 =>
    have hm : [Ev.fl s.core] = m := List.append_cancel_left hm
    subst hm
    simp at hw
  | fail p h1 =>
    have hm : [Ev.fail] = m := List.append_cancel_left hm
    subst hm
    simp at hw
  | lost p q h1 => cases h1
  | upd i h1 h2 h3 =>
    have hm : clnEvs S s (s.ent i).line = m := List.append_cancel_left hm
    subst hm
    simp [clnEvs] at hw
  | _ => exact (nil hm).elim

/-! ### A concrete run, with and without the lost error -/

namespace Run

/-- Line 7 holds core line 3 of core 0, two sectors, sector 0 dirty and containing 42, sector 1
invalid; line 8 holds core line 4, sector 1 dirty. -/
def ln (l : Nat) : Line :=
  if l = 7 then ⟨0, 3, fun t => t == 0, fun t => t == 0⟩
  else ⟨0, 4, fun t => t == 1, fun t => t == 1⟩

/-- The entries. -/
def en (fl iv : Bool) (b : Nat → Nat → Int) (i : Nat) : Entry :=
  if i = 0 then ⟨7, 0, 3, fl, iv, b 0⟩ else ⟨8, 0, 4, fl, iv, b 1⟩

/-- Contents. -/
def dt (l _t : Nat) : Int := if l = 7 then 42 else 43

/-- Two entries, waiting for locks. -/
def s0 : State := ⟨ln, dt, 2, 0, en false false (fun _ _ => 0), .wait, [], false, false, []⟩

theorem start : Start s0 := by
  refine ⟨rfl, rfl, rfl, rfl, rfl, fun i _ => ?_, fun l t => ?_⟩
  · simp only [s0, en]; split <;> simp
  · simp only [s0, ln]; split <;> simp

/-- `lock`. -/
def c1 : State := { s0 with phase := .check 0 }

/-- `chk`. -/
def c2 : State := { c1 with ent := c1.setEnt 0 (checkEnt 2 c1 0), phase := .check 1 }

/-- `chk`. -/
def c3 : State := { c2 with ent := c2.setEnt 1 (checkEnt 2 c2 1), phase := .check 2 }

/-- `fireCache`. -/
def c4 : State := { c3 with phase := .read, pend := readParts c3, err := false }

/-- `rdOk`. -/
def c5 : State := { c4 with ent := c4.setEnt 0 { c4.ent 0 with buf := c4.data (c4.ent 0).line }, pend := c4.pend.erase (.rd 0) }

/-- `rdOk`. -/
def c6 : State := { c5 with ent := c5.setEnt 1 { c5.ent 1 with buf := c5.data (c5.ent 1).line }, pend := c5.pend.erase (.rd 1) }

/-- `rdEnd`. -/
def c7 : State := c6.next (.submit 0) []

/-- `sub`. -/
def c8 : State := { c7 with phase := .submit 1, pend := c7.pend ++ writeParts 2 c7 0 }

/-- `sub`. -/
def c9 : State := { c8 with phase := .submit 2, pend := c8.pend ++ writeParts 2 c8 1 }

/-- `subEnd`. -/
def c10 : State := { c9 with phase := .write }

/-- `wrOk`. -/
def g1 : State := { c10 with pend := c10.pend.erase (.wr 0 0 1), log := c10.log ++ wrEvs c10 0 0 1 }

/-- `wrOk`. -/
def g2 : State := { g1 with pend := g1.pend.erase (.wr 1 1 2), log := g1.log ++ wrEvs g1 1 1 2 }

/-- `wrEnd`. -/
def g3 : State := g2.next .flush [.fl]

/-- `flOk`. -/
def g4 : State := { g3 with pend := g3.pend.erase .fl, log := g3.log ++ [.fl g3.core] }

/-- `flEnd`. -/
def g5 : State := g4.next (.update 0) []

/-- `upd`. -/
def g6 : State := { g5 with lines := cleared 2 g5 (g5.ent 0).line, log := g5.log ++ clnEvs 2 g5 (g5.ent 0).line, phase := .update 1 }

/-- `upd`. -/
def g7 : State := { g6 with lines := cleared 2 g6 (g6.ent 1).line, log := g6.log ++ clnEvs 2 g6 (g6.ent 1).line, phase := .update 2 }

/-- `lost`. -/
def b1 : State := { c10 with pend := c10.pend.erase (.wr 0 0 1), log := c10.log ++ [.fail] }

/-- `wrOk`. -/
def b2 : State := { b1 with pend := b1.pend.erase (.wr 1 1 2), log := b1.log ++ wrEvs b1 1 1 2 }

/-- `wrEnd`. -/
def b3 : State := b2.next .flush [.fl]

/-- `flOk`. -/
def b4 : State := { b3 with pend := b3.pend.erase .fl, log := b3.log ++ [.fl b3.core] }

/-- `flEnd`. -/
def b5 : State := b4.next (.update 0) []

/-- `upd`. -/
def b6 : State := { b5 with lines := cleared 2 b5 (b5.ent 0).line, log := b5.log ++ clnEvs 2 b5 (b5.ent 0).line, phase := .update 1 }

/-- `upd`. -/
def b7 : State := { b6 with lines := cleared 2 b6 (b6.ent 1).line, log := b6.log ++ clnEvs 2 b6 (b6.ent 1).line, phase := .update 2 }

theorem common_run : Reach Start (Step 2 false) c10 := by
  refine .step ?_ (.subEnd c9 rfl : Step 2 _ _ c10)
  refine .step ?_ (.sub c8 1 rfl (by decide) : Step 2 _ _ c9)
  refine .step ?_ (.sub c7 0 rfl (by decide) : Step 2 _ _ c8)
  refine .step ?_ (.rdEnd c6 rfl (by decide) : Step 2 _ _ c7)
  refine .step ?_ (.rdOk c5 1 rfl (by decide) : Step 2 _ _ c6)
  refine .step ?_ (.rdOk c4 0 rfl (by decide) : Step 2 _ _ c5)
  refine .step ?_ (.fireCache c3 rfl (by decide) : Step 2 _ _ c4)
  refine .step ?_ (.chk c2 1 rfl (by decide) : Step 2 _ _ c3)
  refine .step ?_ (.chk c1 0 rfl (by decide) : Step 2 _ _ c2)
  refine .step ?_ (.lock s0 rfl : Step 2 _ _ c1)
  exact .init start

theorem good_run : Reach Start (Step 2 false) g7 := by
  refine .step ?_ (.upd g6 1 rfl (by decide) (by decide) : Step 2 _ _ g7)
  refine .step ?_ (.upd g5 0 rfl (by decide) (by decide) : Step 2 _ _ g6)
  refine .step ?_ (.flEnd g4 rfl (by decide) : Step 2 _ _ g5)
  refine .step ?_ (.flOk g3 (by decide) : Step 2 _ _ g4)
  refine .step ?_ (.wrEnd g2 rfl (by decide) : Step 2 _ _ g3)
  refine .step ?_ (.wrOk g1 1 1 2 (by decide) : Step 2 _ _ g2)
  refine .step ?_ (.wrOk c10 0 0 1 (by decide) : Step 2 _ _ g1)
  refine .step ?_ (.subEnd c9 rfl : Step 2 _ _ c10)
  refine .step ?_ (.sub c8 1 rfl (by decide) : Step 2 _ _ c9)
  refine .step ?_ (.sub c7 0 rfl (by decide) : Step 2 _ _ c8)
  refine .step ?_ (.rdEnd c6 rfl (by decide) : Step 2 _ _ c7)
  refine .step ?_ (.rdOk c5 1 rfl (by decide) : Step 2 _ _ c6)
  refine .step ?_ (.rdOk c4 0 rfl (by decide) : Step 2 _ _ c5)
  refine .step ?_ (.fireCache c3 rfl (by decide) : Step 2 _ _ c4)
  refine .step ?_ (.chk c2 1 rfl (by decide) : Step 2 _ _ c3)
  refine .step ?_ (.chk c1 0 rfl (by decide) : Step 2 _ _ c2)
  refine .step ?_ (.lock s0 rfl : Step 2 _ _ c1)
  exact .init start

theorem bad_run : Reach Start (Step 2 true) b7 := by
  refine .step ?_ (.upd b6 1 rfl (by decide) (by decide) : Step 2 _ _ b7)
  refine .step ?_ (.upd b5 0 rfl (by decide) (by decide) : Step 2 _ _ b6)
  refine .step ?_ (.flEnd b4 rfl (by decide) : Step 2 _ _ b5)
  refine .step ?_ (.flOk b3 (by decide) : Step 2 _ _ b4)
  refine .step ?_ (.wrEnd b2 rfl (by decide) : Step 2 _ _ b3)
  refine .step ?_ (.wrOk b1 1 1 2 (by decide) : Step 2 _ _ b2)
  refine .step ?_ (.lost c10 (.wr 0 0 1) (.wr 1 1 2) rfl (by decide) (by decide) (by decide) : Step 2 _ _ b1)
  refine .step ?_ (.subEnd c9 rfl : Step 2 _ _ c10)
  refine .step ?_ (.sub c8 1 rfl (by decide) : Step 2 _ _ c9)
  refine .step ?_ (.sub c7 0 rfl (by decide) : Step 2 _ _ c8)
  refine .step ?_ (.rdEnd c6 rfl (by decide) : Step 2 _ _ c7)
  refine .step ?_ (.rdOk c5 1 rfl (by decide) : Step 2 _ _ c6)
  refine .step ?_ (.rdOk c4 0 rfl (by decide) : Step 2 _ _ c5)
  refine .step ?_ (.fireCache c3 rfl (by decide) : Step 2 _ _ c4)
  refine .step ?_ (.chk c2 1 rfl (by decide) : Step 2 _ _ c3)
  refine .step ?_ (.chk c1 0 rfl (by decide) : Step 2 _ _ c2)
  refine .step ?_ (.lock s0 rfl : Step 2 _ _ c1)
  exact .init start

/-- The hypotheses of the theorems are met by a run that cleans both lines. -/
example : g7.log = [.wr 0 3 0 42, .wr 0 4 1 43, .fl 0, .cln 7 0 0 3 42, .cln 8 1 0 4 43] := by decide
example : WrittenBack [.wr 0 3 0 42, .wr 0 4 1 43, .fl 0] 0 3 0 42 :=
  clean_after_writeback_partial 2 g7 good_run [.wr 0 3 0 42, .wr 0 4 1 43, .fl 0]
    [.cln 8 1 0 4 43] 7 0 0 3 42 (by decide)
example : ∃ l, (c10.lines l).core = 0 ∧ (c10.lines l).cl = 3 ∧ (c10.lines l).valid 0 = true ∧
    c10.data l 0 = 42 :=
  writes_current 2 c10 g1 common_run (.wrOk c10 0 0 1 (by decide)) [.wr 0 3 0 42] (by decide) 0 3 0 42
    (by decide)
example : (g7.lines 7).dirty 0 = false :=
  cleaned_when_finished 2 g7 good_run rfl 0 (by decide) (by decide) (by decide) 0 (by decide)

end Run

/-- What the lost error code of `Verif.Forward.error_lost` does here: the write of a dirty sector
fails, and the sector is marked clean, without any write of it. -/
theorem lost_error_cleans : ∃ s, Reach Start (Step 2 true) s ∧ Ev.fail ∈ s.log ∧
    Ev.cln 7 0 0 3 42 ∈ s.log ∧ (∀ v, Ev.wr 0 3 0 v ∉ s.log) ∧ s.merr = false :=
  ⟨Run.b7, Run.bad_run, by decide, by decide, by
    have : Run.b7.log = [.fail, .wr 0 4 1 43, .fl 0, .cln 7 0 0 3 42, .cln 8 1 0 4 43] := by decide
    rw [this]; simp, by decide⟩

end Verif.Cleaner
