import Verif.Lemma.FlushMngt

/-!
# C32: a flush that completes without error leaves nothing dirty

The theorems are about all executions of the model in `Verif.Model.FlushMngt`: any number of
cache lines, cores and sectors, any contents of the cache at the start, any interleaving with
requests of users, other cleaner runs and interruptions, any errors and allocation failures, and
any timing (hence any sizes of the portions).  The cleaner is taken to be `honest`: it reports a
portion as finished without an error only when the lines of the portion are clean.  That it
keeps to this is a matter of C18 and C46; `early_completion_asserts` shows what happens if it
does not (and by `Verif.Cleaner.Done.completes_early` it may happen).
-/

namespace Verif.FlushMngt

/-- A flush starts: no flush activity yet; the contents of cache and core volumes are arbitrary
up to consistency (`Good`: a core line is cached at most once, a dirty sector holds the latest
data, the core volume holds the latest data of all other sectors). -/
structure Init (cfg : Cfg) (s : St) : Prop where
  good : Good cfg s.mem
  ph : s.ph = .begin
  conts : s.conts = []
  compl : s.completions = 0
  failed : s.failed = false
  seen : s.seen = false
  bug : s.bug = false

/-- All states a flush can get to. -/
abbrev Reachable (cfg : Cfg) (honest : Bool) : St → Prop := Reach (Init cfg) (Step cfg honest)

theorem inv_reach {cfg : Cfg} (ok : CfgOk cfg) {s : St} (h : Reachable cfg true s) : Inv cfg s := by
  refine Reach.inv (P := Inv cfg) ?_ (fun s t hi hs => inv_step ok hi hs) s h
  intro s h
  refine ⟨h.good, h.bug, (fun hs => by rw [h.seen] at hs; cases hs), ?_⟩
  unfold Body; simp only [h.ph]
  exact ⟨h.conts, h.compl, h.failed, h.seen⟩

/-- No sector of core `c` is dirty, and its volume holds the last data written to each sector. -/
def Clean (cfg : Cfg) (m : Mem) (c : Nat) : Prop :=
  (∀ i k t, i < cfg.entries → t < cfg.sectors → (m.lines i).owner = some (c, k) →
    (m.lines i).dirty t = false) ∧
  (∀ k t, t < cfg.sectors → m.core c k t = m.latest c k t)

theorem clean_of_count {cfg : Cfg} {m : Mem} (g : Good cfg m) {c : Nat}
    (h : dirtyCount cfg m c = 0) : Clean cfg m c := by
  have h1 : ∀ i k t, i < cfg.entries → t < cfg.sectors → (m.lines i).owner = some (c, k) →
      (m.lines i).dirty t = false := by
    intro i k t hi ht ho
    cases hd : (m.lines i).dirty t
    · rfl
    · have := dirtyCount_zero.1 h i hi
      rw [isDirty_iff.2 ⟨k, ho, t, ht, hd⟩] at this; cases this
  exact ⟨h1, fun k t ht => g.cleanData c k t ht (fun i hi ho => h1 i k t hi ht ho)⟩

theorem flushed_mem {cfg : Cfg} (ok : CfgOk cfg) {s : St} (h : Reachable cfg true s)
    (hp : s.ph = .flushed 0 ∨ s.ph = .finished 0) : ∀ c, Wanted cfg c → Clean cfg s.mem c := by
  have hI := inv_reach ok h
  have hb := hI.body
  intro c hw
  apply clean_of_count hI.good
  rcases hp with hp | hp <;> unfold Body at hb <;> simp only [hp] at hb
  · exact hb.2.2.2.2.1 trivial c hw
  · exact hb.2.2.1 trivial c hw

/-- C32 for `ocf_mngt_core_flush`: when the completion is called without error, no sector of the
core is dirty and the core volume holds the data of every write (of all that happened before the
flush, and of those during the flush). -/
theorem core_flush_clean_partial {cfg : Cfg} (ok : CfgOk cfg) {s : St} (h : Reachable cfg true s)
    {c : Nat} (hop : cfg.op = .core c) (hp : s.ph = .finished 0) : Clean cfg s.mem c :=
  flushed_mem ok h (Or.inr hp) c (by simp [Wanted, hop])

/-- C32 for `ocf_mngt_cache_flush`: the same for all cores; no line at all has a dirty sector. -/
theorem cache_flush_clean_partial {cfg : Cfg} (ok : CfgOk cfg) {s : St} (h : Reachable cfg true s)
    (hop : cfg.op = .all) (hp : s.ph = .finished 0) :
    (∀ c ∈ cfg.cores, Clean cfg s.mem c) ∧
    ∀ i c k t, i < cfg.entries → t < cfg.sectors → (s.mem.lines i).owner = some (c, k) →
      (s.mem.lines i).dirty t = false := by
  have h1 : ∀ c ∈ cfg.cores, Clean cfg s.mem c := fun c hc =>
    flushed_mem ok h (Or.inr hp) c (by simpa [Wanted, hop] using hc)
  refine ⟨h1, ?_⟩
  intro i c k t hi ht ho
  exact (h1 c ((inv_reach ok h).good.incores i c k hi ho)).1 i k t hi ht ho

/-- What a purge relies on: between the end of the flush and the removal of the lines (any number
of steps later, `/repo/src/mngt/ocf_mngt_flush.c:814-827`) nothing the purge removes is dirty. -/
theorem purge_removes_clean_partial {cfg : Cfg} (ok : CfgOk cfg) {s : St}
    (h : Reachable cfg true s) (hp : s.ph = .flushed 0) :
    ∀ c, (cfg.op = .core c ∨ cfg.op = .all ∧ c ∈ cfg.cores) → Clean cfg s.mem c := by
  intro c hc
  apply flushed_mem ok h (Or.inl hp) c
  unfold Wanted
  rcases hc with hc | ⟨hc, h1⟩ <;> rw [hc]
  exact h1

/-- No assertion of the flush code fails (`ENV_BUG_ON` in the loop over the lines, the checks of
the size of a portion), no table overflows, and no entry of a table is used that was not written. -/
theorem no_assert {cfg : Cfg} (ok : CfgOk cfg) {s : St} (h : Reachable cfg true s) :
    s.bug = false := (inv_reach ok h).nobug

/-- The end of all containers is reported at most once, and exactly once before the pipeline goes
on; and then no container is running any more. -/
theorem completes_once {cfg : Cfg} (ok : CfgOk cfg) {s : St} (h : Reachable cfg true s) :
    s.completions ≤ 1 ∧
    (∀ e, s.ph = .flushed e → s.completions = 1 ∧
      ∀ (k : Nat) fc, s.conts[k]? = some fc → fc.st = .idle ∨ fc.st = .closed) := by
  have hb := (inv_reach ok h).body
  constructor
  · unfold Body at hb
    cases hp : s.ph <;> simp only [hp] at hb
    · omega
    · omega
    · omega
    · have := hb.1.compl; omega
    · have := hb.1.compl; omega
    · omega
    · omega
  · intro e hp
    unfold Body at hb; simp only [hp] at hb
    refine ⟨hb.1, ?_⟩
    intro k fc hk
    have hna : active fc = false := by
      cases ha : active fc
      · rfl
      · have := countP_pos_of_get active _ _ _ hk ha; omega
    unfold active at hna
    cases hst : fc.st <;> simp [hst] at hna ⊢

/-- Errors are not lost: if an allocation failed or the cleaner reported an error for some
portion of some container, the flush reports an error. -/
theorem error_reported {cfg : Cfg} (ok : CfgOk cfg) {s : St} (h : Reachable cfg true s)
    (hf : s.failed = true) {e : Int} (hp : s.ph = .flushed e ∨ s.ph = .finished e) : e ≠ 0 := by
  have hb := (inv_reach ok h).body
  rcases hp with hp | hp <;> unfold Body at hb <;> simp only [hp] at hb
  · exact hb.2.2.2.2.2.1 hf
  · exact hb.2.2.2 hf

/-- And an error has a cause: one of those, or an interruption by the user. -/
theorem error_has_cause {cfg : Cfg} (ok : CfgOk cfg) {s : St} (h : Reachable cfg true s)
    {e : Int} (hp : s.ph = .flushed e) (he : e ≠ 0) : s.failed = true ∨ s.interrupted = true := by
  have hI := inv_reach ok h
  have hb := hI.body
  unfold Body at hb; simp only [hp] at hb
  exact (hb.2.2.2.2.2.2 he).imp id hI.seen

/-- Every portion makes progress: it takes at least one and at most all entries which are left, or
the core has no dirty line any more and the container ends.  So a container needs at most as many
portions as it has entries. -/
theorem portion_progress {cfg : Cfg} (ok : CfgOk cfg) {s : St} (h : Reachable cfg true s)
    {k : Nat} {fc : Cont} (hk : s.conts[k]? = some fc) (hst : fc.st = .queued) (ms : Nat) :
    ∃ fc', (flushPortion cfg s k fc ms).conts[k]? = some fc' ∧
      ((fc'.st = .ended 0 ∧ dirtyCount cfg s.mem fc.core = 0) ∨
       (fc'.st = .cleaning fc.iter ∧ fc.iter < fc'.iter ∧ fc'.iter ≤ fc.data.length)) := by
  have b := (inv_reach ok h).body
  have ha : active fc = true := by simp [active, hst]
  have hcI : ContInv cfg s.mem s.err fc := by
    rcases body_active b hk ha with hp | hp <;> unfold Body at b <;> simp only [hp] at b <;>
      exact b.1.run.each k fc hk
  have hcov : Cov cfg s.mem fc fc.iter := by have := hcI.2; rw [hst] at this; exact this
  have hlen := hcI.1
  have hlt : k < s.conts.length := by
    rw [List.getElem?_eq_some_iff] at hk; exact hk.1
  unfold flushPortion
  simp only
  by_cases e : dirtyCount cfg s.mem fc.core = 0
  · rw [if_pos e]
    exact ⟨_, List.getElem?_set_self hlt, Or.inl ⟨rfl, e⟩⟩
  · rw [if_neg e]
    have hpos := nextPortion_pos (prev := fc.portion) (ms := ms) ok.line
    have hcount : dirtyCount cfg s.mem fc.core ≤ (fc.data.drop fc.iter).length :=
      count_le_length hcov
    rw [List.length_drop] at hcount
    rw [if_neg (by omega), if_neg (by omega)]
    exact ⟨_, List.getElem?_set_self hlt, Or.inr ⟨rfl, by simp only; omega, by simp only; omega⟩⟩

/-- The size of a portion is between 4 MiB and 100 MiB, whatever the time measured. -/
theorem portion_bounds {ls prev ms : Nat} :
    flushMin ls ≤ nextPortion ls prev ms ∧ nextPortion ls prev ms ≤ flushMax ls := by
  have : flushMin ls ≤ flushMax ls := by
    unfold flushMin flushMax; exact Nat.div_le_div_right (by omega)
  unfold nextPortion
  simp only
  omega

/-! ### Examples -/

/-- Two cores, three lines of two sectors; lines 0 and 2 belong to cores 1 and 0 and are dirty. -/
def exMem : Mem :=
  { lines := fun i =>
      if i = 0 then { owner := some (1, 5), dirty := fun t => t == 0, data := fun _ => 7 }
      else if i = 2 then { owner := some (0, 3), dirty := fun t => t == 1, data := fun _ => 9 }
      else { owner := none, dirty := fun _ => false, data := fun _ => 0 }
    core := fun _ _ _ => 0
    latest := fun c k t =>
      if c = 1 ∧ k = 5 ∧ t = 0 then 7 else if c = 0 ∧ k = 3 ∧ t = 1 then 9 else 0 }

def exCfg (op : Op) : Cfg :=
  { entries := 3, sectors := 2, lineSize := 65536, cores := [0, 1, 4], coreCount := 3, op := op }

def exInit : St :=
  { mem := exMem, ph := .begin, writers := 0, frozen := false, tabs := Tabs.zero, conts := []
    next := 0, refs := 0, err := 0, seen := false, interrupted := false, completions := 0
    failed := false, bug := false }

theorem exCfg_ok (op : Op) : CfgOk (exCfg op) :=
  ⟨by simp [exCfg], by simp [exCfg], by simp [exCfg]⟩

theorem exGood (op : Op) : Good (exCfg op) exMem := by
  have hl : ∀ i, i < 3 → i = 0 ∨ i = 1 ∨ i = 2 := by intro i h; omega
  constructor
  · intro i j o hi hj h1 h2
    rcases hl i hi with rfl | rfl | rfl <;> rcases hl j hj with rfl | rfl | rfl <;>
      simp [exMem] at h1 h2 <;> (try rfl) <;> (subst h1; simp at h2)
  · intro i c k hi h1
    rcases hl i hi with rfl | rfl | rfl <;> simp [exMem] at h1 <;> simp [exCfg, ← h1.1]
  · intro i c k t hi ht h1 h2
    rcases hl i hi with rfl | rfl | rfl <;> simp [exMem] at h1 h2 <;>
      obtain ⟨rfl, rfl⟩ := h1 <;> subst h2 <;> simp [exMem]
  · intro c k t ht h
    have h0 := h 0 (by simp [exCfg])
    have h2 := h 2 (by simp [exCfg])
    simp only [exMem] at h0 h2 ⊢
    simp at h0 h2
    by_cases e : c = 1 ∧ k = 5 ∧ t = 0
    · exact absurd e.2.2 (h0 e.1.symm e.2.1.symm)
    · rw [if_neg e]
      by_cases e' : c = 0 ∧ k = 3 ∧ t = 1
      · exact absurd e'.2.2 (h2 e'.1.symm e'.2.1.symm)
      · rw [if_neg e']

theorem exInit_init (op : Op) : Init (exCfg op) exInit := ⟨exGood op, rfl, rfl, rfl, rfl, rfl, rfl⟩

/-- A container of the examples. -/
def exCont (c : Nat) (d : List Nat) (iter portion : Nat) (st : CSt) : Cont :=
  { core := c, data := d, count := d.length, iter := iter, portion := portion, st := st }

/-- A flush of the whole cache that succeeds: the tables are filled, both containers are started,
each line is cleaned, and the completion is called with 0. -/
theorem example_run : ∃ s, Reachable (exCfg .all) true s ∧ s.ph = .finished 0 ∧ s.completions = 1 ∧
    s.mem.core 1 5 0 = 7 ∧ s.mem.core 0 3 1 = 9 := by
  have h0 : Reachable (exCfg .all) true exInit := .init (exInit_init _)
  have h1 := Reach.step h0 (.freeze rfl)
  have h2 := Reach.step h1 (.zero rfl rfl)
  have h3 := Reach.step h2 (.scan rfl)
  have h4 := Reach.step h3 (.scan rfl)
  have h5 := Reach.step h4 (.scan rfl)
  have h6 := Reach.step h5 (.start true rfl)
  have h7 := Reach.step h6 (.start true rfl)
  have h8 := Reach.step h7 (.start true rfl)
  have h9 := Reach.step h8 (.start true rfl)
  have h10 := Reach.step h9 (.portion 0 (exCont 0 [2] 0 64 .queued) 1000000 (by decide +kernel) rfl)
  have h11 := Reach.step h10 (.portion 1 (exCont 1 [0] 0 64 .queued) 1000000 (by decide +kernel) rfl)
  have h12 := Reach.step h11 (.mem _ (by decide +kernel) (.clean 2 0 3 1 (by decide) (by decide) (by decide +kernel) (by decide +kernel)))
  have h13 := Reach.step h12 (.cleaned 0 (exCont 0 [2] 1 64 (.cleaning 0)) 0 0 (by decide +kernel) rfl
    (by intro _ _ i hi; simp [portionLines, exCont] at hi; subst hi; decide +kernel))
  have h14 := Reach.step h13 (.ended 0 (exCont 0 [2] 1 64 (.ended 0)) 0 (by decide +kernel) rfl)
  have h15 := Reach.step h14 (.next 0 (exCont 0 [2] 1 64 .checked) (by decide +kernel) rfl)
  have h16 := Reach.step h15 (.close 0 (exCont 0 [2] 1 64 .closing) (by decide +kernel) rfl)
  have h17 := Reach.step h16 (.mem _ (by decide +kernel) (.clean 0 1 5 0 (by decide) (by decide) (by decide +kernel) (by decide +kernel)))
  have h18 := Reach.step h17 (.cleaned 1 (exCont 1 [0] 1 64 (.cleaning 0)) 0 0 (by decide +kernel) rfl
    (by intro _ _ i hi; simp [portionLines, exCont] at hi; subst hi; decide +kernel))
  have h19 := Reach.step h18 (.ended 1 (exCont 1 [0] 1 64 (.ended 0)) 0 (by decide +kernel) rfl)
  have h20 := Reach.step h19 (.next 1 (exCont 1 [0] 1 64 .checked) (by decide +kernel) rfl)
  have h21 := Reach.step h20 (.close 1 (exCont 1 [0] 1 64 .closing) (by decide +kernel) rfl)
  have h22 := Reach.step h21 (.finish 0 (by decide +kernel))
  exact ⟨_, h22, by decide +kernel, by decide +kernel, by decide +kernel, by decide +kernel⟩

/-- A flush of core 1 which fails: the cleaner reports an error, the line stays dirty, and the
completion gets the error (and not the one of the interruption that came later). -/
theorem example_error : ∃ s, Reachable (exCfg (.core 1)) true s ∧
    s.ph = .finished (-5) ∧ dirtyCount (exCfg (.core 1)) s.mem 1 = 1 := by
  have h0 : Reachable (exCfg (.core 1)) true exInit := .init (exInit_init _)
  have h1 := Reach.step h0 (.freeze rfl)
  have h2 := Reach.step h1 (.zero rfl rfl)
  have h3 := Reach.step h2 (.scan rfl)
  have h4 := Reach.step h3 (.start true rfl)
  have h5 := Reach.step h4 (.start true rfl)
  have h7 := Reach.step h5 (.portion 0 (exCont 1 [0] 0 64 .queued) 1000000 (by decide +kernel) rfl)
  have h8 := Reach.step h7 (.cleaned 0 (exCont 1 [0] 1 64 (.cleaning 0)) 0 (-5) (by decide +kernel) rfl
    (by intro _ h; cases h))
  have h6 := Reach.step h8 .interrupt
  have h9 := Reach.step h6 (.ended 0 (exCont 1 [0] 1 64 (.ended (-5))) (-5) (by decide +kernel) rfl)
  have h10 := Reach.step h9 (.next 0 (exCont 1 [0] 1 64 .checked) (by decide +kernel) rfl)
  have h11 := Reach.step h10 (.close 0 (exCont 1 [0] 1 64 .closing) (by decide +kernel) rfl)
  have h12 := Reach.step h11 (.finish (-5) (by decide +kernel))
  exact ⟨_, h12, by decide +kernel, by decide +kernel⟩

/-- A flush of core 1 which is interrupted while its line is being cleaned. -/
theorem example_interrupted : ∃ s, Reachable (exCfg (.core 1)) true s ∧
    s.ph = .finished (-1000018) ∧ s.failed = false := by
  have h0 : Reachable (exCfg (.core 1)) true exInit := .init (exInit_init _)
  have h1 := Reach.step h0 (.freeze rfl)
  have h2 := Reach.step h1 (.zero rfl rfl)
  have h3 := Reach.step h2 (.scan rfl)
  have h4 := Reach.step h3 (.start true rfl)
  have h5 := Reach.step h4 (.start true rfl)
  have h7 := Reach.step h5 (.portion 0 (exCont 1 [0] 0 64 .queued) 1000000 (by decide +kernel) rfl)
  have h6 := Reach.step h7 .interrupt
  have h12 := Reach.step h6 (.mem _ (by decide +kernel) (.clean 0 1 5 0 (by decide) (by decide) (by decide +kernel) (by decide +kernel)))
  have h8 := Reach.step h12 (.cleaned 0 (exCont 1 [0] 1 64 (.cleaning 0)) 0 0 (by decide +kernel) rfl
    (by intro _ _ i hi; simp [portionLines, exCont] at hi; subst hi; decide +kernel))
  have h9 := Reach.step h8 (.ended 0 (exCont 1 [0] 1 64 (.ended 0)) 0 (by decide +kernel) rfl)
  have h10 := Reach.step h9 (.next 0 (exCont 1 [0] 1 64 .checked) (by decide +kernel) rfl)
  have h11 := Reach.step h10 (.close 0 (exCont 1 [0] 1 64 .closing) (by decide +kernel) rfl)
  have h12 := Reach.step h11 (.finish (-1000018) (by decide +kernel))
  exact ⟨_, h12, by decide +kernel, by decide +kernel⟩

/-- If the cleaner reports a portion as finished too early (which it may, see
`Verif.Cleaner.Done.completes_early`), the next portion runs into the assertion of
`/repo/src/mngt/ocf_mngt_flush.c:413-419`. -/
theorem early_completion_asserts : ∃ s, Reachable (exCfg (.core 1)) false s ∧ s.bug = true := by
  have h0 : Reachable (exCfg (.core 1)) false exInit := .init (exInit_init _)
  have h1 := Reach.step h0 (.freeze rfl)
  have h2 := Reach.step h1 (.zero rfl rfl)
  have h3 := Reach.step h2 (.scan rfl)
  have h4 := Reach.step h3 (.start true rfl)
  have h5 := Reach.step h4 (.start true rfl)
  have h7 := Reach.step h5 (.portion 0 (exCont 1 [0] 0 64 .queued) 1000000 (by decide +kernel) rfl)
  have h8 := Reach.step h7 (.cleaned 0 (exCont 1 [0] 1 64 (.cleaning 0)) 0 0 (by decide +kernel) rfl
    (by intro h; cases h))
  have h9 := Reach.step h8 (.ended 0 (exCont 1 [0] 1 64 (.ended 0)) 0 (by decide +kernel) rfl)
  have h10 := Reach.step h9 (.next 0 (exCont 1 [0] 1 64 .checked) (by decide +kernel) rfl)
  have h11 := Reach.step h10 (.portion 0 (exCont 1 [0] 1 64 .queued) 1000000 (by decide +kernel) rfl)
  exact ⟨_, h11, by decide +kernel⟩

end Verif.FlushMngt
