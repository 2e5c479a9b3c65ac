import Verif.Lemma.Submit

/-! Properties of the library's own submissions to the cache device (C59). -/

namespace Verif.Submit

/-! ## Specification -/

/-- How many parts touch byte `x`. -/
def hits : List (Nat × Nat) → Nat → Nat
  | [], _ => 0
  | p :: l, x => (if p.1 ≤ x ∧ x < p.1 + p.2 then 1 else 0) + hits l x

/-- The error reported for the results of parts: the first that is not 0. -/
def Report : List Int → Int → Prop
  | [], r => r = 0
  | e :: l, r => (e ≠ 0 ∧ r = e) ∨ (e = 0 ∧ Report l r)

/-- Runs of `k` steps. -/
inductive Run : Nat → St → St → Prop
  | nil (s : St) : Run 0 s s
  | cons {k : Nat} {s t u : St} : Step s t → Run k t u → Run (k + 1) s u

/-! ## Helpers -/

theorem tile_le {m a b : Nat} {l : List (Nat × Nat)} (h : Tile m a l b) : a ≤ b := by
  induction l generalizing a with
  | nil => exact Nat.le_of_eq h
  | cons p l ih => have := ih h.2.2.2; omega

theorem tile_hits {m a b : Nat} {l : List (Nat × Nat)} (h : Tile m a l b) (x : Nat) :
    hits l x = if a ≤ x ∧ x < b then 1 else 0 := by
  induction l generalizing a with
  | nil =>
    have : a = b := h
    rw [if_neg (by omega)]; rfl
  | cons p l ih =>
    obtain ⟨h1, h2, _, h4⟩ := h
    have := tile_le h4
    simp only [hits, ih h4]
    by_cases hx : p.1 ≤ x ∧ x < p.1 + p.2
    · rw [if_pos hx, if_neg (by omega), if_pos (by omega)]
    · rw [if_neg hx]
      by_cases hy : a + p.2 ≤ x ∧ x < b
      · rw [if_pos hy, if_pos (by omega)]
      · rw [if_neg hy, if_neg (by omega)]

theorem tile_mem {m a b : Nat} {l : List (Nat × Nat)} (h : Tile m a l b) :
    ∀ p ∈ l, 0 < p.2 ∧ p.2 ≤ m ∧ a ≤ p.1 ∧ p.1 + p.2 ≤ b := by
  induction l generalizing a with
  | nil => intro p hp; cases hp
  | cons q l ih =>
    obtain ⟨h1, h2, h3, h4⟩ := h
    intro p hp
    have := tile_le h4
    rcases List.mem_cons.mp hp with rfl | hp
    · exact ⟨h2, h3, by omega, by omega⟩
    · have := ih h4 p hp
      exact ⟨this.1, this.2.1, by omega, this.2.2.2⟩

theorem firstErr_report (l : List Int) : Report l (firstErr l) := by
  induction l with
  | nil => rfl
  | cons e l ih =>
    unfold Report firstErr
    by_cases h : e = 0
    · exact Or.inr ⟨h, by simpa [h] using ih⟩
    · exact Or.inl ⟨h, by simp [h]⟩

theorem report_zero {l : List Int} (h : Report l 0) : ∀ e ∈ l, e = 0 := by
  induction l with
  | nil => intro e he; cases he
  | cons a l ih =>
    intro e he
    rcases h with ⟨h1, h2⟩ | ⟨h1, h2⟩
    · exact absurd h2.symm h1
    · rcases List.mem_cons.mp he with rfl | he
      · exact h1
      · exact ih h2 e he

theorem report_mem {l : List Int} {r : Int} (h : Report l r) (h0 : r ≠ 0) : r ∈ l := by
  induction l with
  | nil => exact absurd h h0
  | cons a l ih =>
    rcases h with ⟨_, rfl⟩ | ⟨_, h2⟩
    · exact List.mem_cons_self
    · exact List.mem_cons_of_mem _ (ih h2)

/-! ## Parts -/

/-- Of every submission of a range, at every moment: no part is empty, none is longer than the limit, all lie in
the range, no byte is in two parts. -/
theorem parts_in {s : St} (h : Reach Init Step s) {a n : Nat}
    (hk : s.kind = .discard a n ∨ s.kind = .zeros a n) :
    (∀ p ∈ s.parts, 0 < p.2 ∧ p.2 ≤ 2 ^ 32 - 512 ∧ a ≤ p.1 ∧ p.1 + p.2 ≤ a + n) ∧
    (s.kind = .zeros a n → ∀ p ∈ s.parts, p.2 ≤ 2 ^ 32 - 4096) ∧
    ∀ x, hits s.parts x ≤ 1 := by
  have hi := inv_reach h
  have hp := hi.parts
  have hd : maxDiscard = 2 ^ 32 - 512 := rfl
  have hz : maxZeros = 2 ^ 32 - 4096 := rfl
  obtain ⟨b, ht, hb⟩ : ∃ b, Tile (lim s.kind) a s.parts b ∧ b ≤ a + n ∨ s.parts = [] := by
    unfold PartsOk at hp
    cases hpc : s.pc with
    | start => rw [hpc] at hp; exact ⟨0, Or.inr hp⟩
    | one => rw [hpc] at hp; exact ⟨0, Or.inr hp.1⟩
    | loop x m =>
      rw [hpc] at hp
      obtain ⟨u, v, hr, ht, he⟩ := hp
      have : some (a, a + n) = some (u, v) := by
        rcases hk with hk | hk <;> · rw [hk] at hr; exact hr
      cases this
      exact ⟨x, Or.inl ⟨ht, by omega⟩⟩
    | ret =>
      rw [hpc] at hp
      cases ho : s.ok
      · exact ⟨0, Or.inr (hi.nok ho hpc).2.1⟩
      · have := hp ho
        refine ⟨a + n, Or.inl ⟨?_, Nat.le_refl _⟩⟩
        rcases hk with hk | hk <;> · rw [hk] at this ⊢; exact this
  · have hl : lim s.kind ≤ maxDiscard := by
      rcases hk with hk | hk
      · rw [hk]; exact Nat.le_refl _
      · rw [hk]; show maxZeros ≤ maxDiscard; omega
    refine ⟨fun p hp => ?_, fun hkz p hp => ?_, fun x => ?_⟩
    · have := tile_mem ht p hp
      exact ⟨this.1, by omega, this.2.2.1, by omega⟩
    · have := tile_mem ht p hp
      rw [hkz] at this
      have h2 : p.2 ≤ maxZeros := this.2.1
      omega
    · rw [tile_hits ht]; split <;> omega
  · rename_i he
    rw [he]
    exact ⟨fun p hp => (by cases hp), fun _ p hp => (by cases hp), fun x => Nat.zero_le _⟩

/-- Once the call has returned with its allocations, the parts contain every byte of the range exactly once and
no other byte. -/
theorem parts_cover {s : St} (h : Reach Init Step s) {a n : Nat}
    (hk : s.kind = .discard a n ∨ s.kind = .zeros a n) (hr : s.pc = .ret) (ho : s.ok = true) (x : Nat) :
    hits s.parts x = if a ≤ x ∧ x < a + n then 1 else 0 := by
  have hp := (inv_reach h).parts
  unfold PartsOk at hp
  rw [hr] at hp
  have := hp ho
  rcases hk with hk | hk <;> · rw [hk] at this; exact tile_hits this x

theorem dvd_min {d a b : Nat} (ha : d ∣ a) (hb : d ∣ b) : d ∣ min a b := by
  rcases Nat.le_total a b with h | h
  · rw [Nat.min_eq_left h]; exact ha
  · rw [Nat.min_eq_right h]; exact hb

/-- Aligned so far. -/
def Al (d : Nat) (s : St) : Prop :=
  ∀ a n, s.kind = .discard a n ∨ s.kind = .zeros a n → d ∣ lim s.kind → d ∣ a → d ∣ n →
    (∀ p ∈ s.parts, d ∣ p.1 ∧ d ∣ p.2) ∧ ∀ x m, s.pc = .loop x m → d ∣ x ∧ d ∣ m

theorem put_fields (s : St) : (put s).parts = s.parts ∧ (put s).kind = s.kind ∧ (put s).pc = s.pc := by
  unfold put
  simp only
  split
  · split
    · unfold complete
      simp only
      split <;> exact ⟨rfl, rfl, rfl⟩
    · exact ⟨rfl, rfl, rfl⟩
  · exact ⟨rfl, rfl, rfl⟩

theorem done_fields (s : St) (e : Int) (v : Nat) :
    (done s e v).parts = s.parts ∧ (done s e v).kind = s.kind ∧ (done s e v).pc = s.pc := by
  unfold done
  simp only
  split
  · split
    · exact put_fields _
    · exact put_fields _
  · exact put_fields _

theorem submit_fields (s : St) (i : In) : (submit s i).parts = s.parts ∧ (submit s i).kind = s.kind ∧
    ∀ x m, (submit s i).pc = .loop x m → s.kind = .discard x m ∨ s.kind = .zeros x m := by
  obtain ⟨i1, i2, i3⟩ := i
  unfold submit fail
  cases hk : s.kind <;> cases i1 <;> cases i2 <;> cases i3 <;> simp
  all_goals (intro x m h1 h2; exact ⟨h1, h2⟩)

theorem al_reach {d : Nat} {s : St} (h : Reach Init Step s) : Al d s := by
  refine (Reach.inv (P := fun s => Inv s ∧ Al d s) ?_ ?_ s h).2
  · intro s hs
    refine ⟨inv_init hs, ?_⟩
    obtain ⟨k, b, rfl⟩ := hs
    intro a n _ _ _ _
    exact ⟨fun p hp => (by cases hp), fun x m e => (by cases e)⟩
  · intro s t ⟨hi, hal⟩ hst
    refine ⟨hi.step hst, ?_⟩
    cases hst with
    | submit i h1 =>
      intro a n hr hl ha hn
      obtain ⟨f1, f2, f3⟩ := submit_fields s i
      rw [f2] at hr hl
      rw [f1]
      refine ⟨(hal a n hr hl ha hn).1, fun x m e => ?_⟩
      have hxm := f3 x m e
      rcases hr with hr | hr <;> rw [hr] at hxm <;> rcases hxm with hxm | hxm <;> cases hxm <;> exact ⟨ha, hn⟩
    | act _ h1 h2 =>
      intro a n hr hl ha hn
      cases hpc : s.pc with
      | start => exact absurd hpc h1
      | ret => exact absurd hpc h2
      | one =>
        refine absurd hpc ?_
        have hp := hi.parts
        unfold PartsOk at hp
        intro hpc
        rw [hpc] at hp
        have h2 := hp.2
        have hk : (act s).kind = s.kind := by
          unfold act
          rw [hpc]
          simp only
          split <;> rfl
        rw [← show (act s).kind = _ from hk] at h2
        rcases hr with hr | hr <;> · rw [show (act s).kind = _ from hr] at h2; cases h2
      | loop x m =>
        unfold act at hr hl ⊢
        simp only [hpc] at hr hl ⊢
        by_cases hm : m = 0
        · simp only [hm, if_true] at hr hl ⊢
          rw [(put_fields s).2.1] at hr hl
          rw [(put_fields s).1]
          exact ⟨(hal a n hr hl ha hn).1, fun x m e => (by cases e)⟩
        · rw [if_neg hm] at hr hl ⊢
          have hq := hal a n hr hl ha hn
          have hxm := hq.2 x m hpc
          have hd : d ∣ bytes s.kind m := by rw [bytes_eq]; exact dvd_min hxm.2 hl
          refine ⟨fun p hp => ?_, fun y k e => ?_⟩
          · rcases List.mem_append.mp hp with hp | hp
            · exact hq.1 p hp
            · rw [List.mem_singleton.mp hp]; exact ⟨hxm.1, hd⟩
          · cases e
            exact ⟨Nat.dvd_add hxm.1 hd, Nat.dvd_sub hxm.2 hd⟩
    | done e v _ h1 =>
      intro a n hr hl ha hn
      rw [(done_fields s e v).2.1] at hr hl
      rw [(done_fields s e v).1, (done_fields s e v).2.2]
      exact hal a n hr hl ha hn

/-- Parts of an aligned range are aligned: to sectors for a discard, to pages for zeroing. -/
theorem parts_aligned {s : St} (h : Reach Init Step s) {a n : Nat} :
    (s.kind = .discard a n → 512 ∣ a → 512 ∣ n → ∀ p ∈ s.parts, 512 ∣ p.1 ∧ 512 ∣ p.2) ∧
    (s.kind = .zeros a n → 4096 ∣ a → 4096 ∣ n → ∀ p ∈ s.parts, 4096 ∣ p.1 ∧ 4096 ∣ p.2) := by
  refine ⟨fun hk ha hn => ?_, fun hk ha hn => ?_⟩
  · exact (al_reach (d := 512) h a n (Or.inl hk) (by rw [hk]; exact ⟨8388607, rfl⟩) ha hn).1
  · exact (al_reach (d := 4096) h a n (Or.inr hk) (by rw [hk]; exact ⟨1048575, rfl⟩) ha hn).1

/-- A flush is one part, a page is one part of 4096 bytes at its address. -/
theorem single_part {s : St} (h : Reach Init Step s) (hr : s.pc = .ret) (ho : s.ok = true) :
    (s.kind = .flush → s.parts = [(0, 0)]) ∧ (∀ w a, s.kind = .page w a → s.parts = [(a, 4096)]) := by
  have hp := (inv_reach h).parts
  unfold PartsOk at hp
  rw [hr] at hp
  have := hp ho
  exact ⟨fun hk => by rw [hk] at this; exact this, fun w a hk => by rw [hk] at this; exact this⟩

/-! ## Reports -/

/-- The completion is called at most once, and only when the call has forwarded everything and every part is
complete; the error is the first one of a part, or `-OCF_ERR_NO_MEM` when nothing was forwarded. -/
theorem report_once {s : St} (h : Reach Init Step s) :
    s.rep = [] ∨ ∃ r, s.rep = [r] ∧ s.pc = .ret ∧ s.out = 0 ∧ s.errs.length = s.parts.length ∧
      ((s.ok = true ∧ Report s.errs r) ∨ (s.ok = false ∧ s.parts = [] ∧ r = noMem)) := by
  have hi := inv_reach h
  have hn := hi.nout
  cases ho : s.ok
  · by_cases hr : s.pc = .ret
    · obtain ⟨h1, h2, h3, _⟩ := hi.nok ho hr
      exact Or.inr ⟨_, h3, hr, h1, by omega, Or.inr ⟨rfl, h2, rfl⟩⟩
    · by_cases hs : s.pc = .start
      · exact Or.inl (hi.st hs).2.2.2.1
      · have := hi.okk hs hr; rw [ho] at this; cases this
  · by_cases hv : Over s
    · have := hi.over ho hv
      split at this
      · exact Or.inl this.2.1
      · exact Or.inr ⟨_, this.2.1, hv.1, hv.2, by have := hv.2; omega, Or.inl ⟨rfl, by
          rw [hi.err]; exact firstErr_report _⟩⟩
    · exact Or.inl (hi.live ho hv).2.2.1

/-- Success of a discard means that every byte of the range, and no other, was in one part and every part
succeeded. -/
theorem success_means {s : St} (h : Reach Init Step s) (hr : s.rep = [0]) :
    (∀ e ∈ s.errs, e = 0) ∧ s.errs.length = s.parts.length ∧
    ∀ a n, s.kind = .discard a n → ∀ x, hits s.parts x = if a ≤ x ∧ x < a + n then 1 else 0 := by
  rcases report_once h with h1 | ⟨r, h1, h2, h3, h4, h5⟩
  · rw [h1] at hr; cases hr
  · rw [h1] at hr
    cases hr
    rcases h5 with ⟨ho, h5⟩ | ⟨_, _, h5⟩
    · exact ⟨report_zero h5, h4, fun a n hk x => parts_cover h (Or.inl hk) h2 ho x⟩
    · cases h5

/-- Failure comes from a part that failed or from lack of memory. -/
theorem failure_means {s : St} (h : Reach Init Step s) {r : Int} (hr : s.rep = [r]) (h0 : r ≠ 0) :
    r ∈ s.errs ∨ (r = noMem ∧ s.parts = []) := by
  rcases report_once h with h1 | ⟨r', h1, h2, h3, h4, h5⟩
  · rw [h1] at hr; cases hr
  · rw [h1] at hr
    cases hr
    rcases h5 with ⟨_, h5⟩ | ⟨_, h6, h5⟩
    · exact Or.inl (report_mem h5 h0)
    · exact Or.inr ⟨h5, h6⟩

/-- When the call has returned and no part is under way, the completion has been called, nothing stays allocated
and no NULL function was called. For flush, discard and pages only: zeroing never reports (`zeros_never`). -/
theorem reports_partial {s : St} (h : Reach Init Step s) (hk : ∀ a n, s.kind ≠ .zeros a n)
    (hr : s.pc = .ret) (ho : s.out = 0) :
    (∃ r, s.rep = [r] ∧ (s.ok = true → Report s.errs r) ∧ (s.ok = false → r = noMem)) ∧
    s.ctx = false ∧ s.req = false ∧ s.dat = false ∧ s.crash = false := by
  have hi := inv_reach h
  have hz : isZeros s.kind = false := by
    cases hk' : s.kind with
    | zeros a n => exact absurd hk' (hk a n)
    | flush => rfl
    | discard a n => rfl
    | page w a => rfl
  cases hok : s.ok
  · obtain ⟨_, _, h3, h4, h5, h6, h7, _⟩ := hi.nok hok hr
    exact ⟨⟨_, h3, fun x => (by cases x), fun _ => rfl⟩, h4, h5, h6, h7⟩
  · have := hi.over hok ⟨hr, ho⟩
    rw [if_neg (by rw [hz]; simp)] at this
    obtain ⟨h1, h2, h3, h4, h5⟩ := this
    exact ⟨⟨_, h2, fun _ => by rw [hi.err]; exact firstErr_report _, fun x => (by cases x)⟩, h3, h4, h5, h1⟩

/-- Zeroing whose allocations succeed never calls the completion; when the last part completes a NULL function is
called, with the context and the request still allocated. -/
theorem zeros_never {s : St} (h : Reach Init Step s) {a n : Nat} (hk : s.kind = .zeros a n) (ho : s.ok = true) :
    s.rep = [] ∧ (s.pc = .ret → s.out = 0 → s.crash = true ∧ s.ctx = true ∧ s.req = true) := by
  have hi := inv_reach h
  by_cases hv : Over s
  · have := hi.over ho hv
    rw [if_pos (by rw [hk]; rfl)] at this
    exact ⟨this.2.1, fun _ _ => ⟨this.1, this.2.2.1, this.2.2.2⟩⟩
  · exact ⟨(hi.live ho hv).2.2.1, fun h1 h2 => absurd ⟨h1, h2⟩ hv⟩

/-- A NULL function is only ever called for zeroing. -/
theorem crash_zeros {s : St} (h : Reach Init Step s) (hc : s.crash = true) : ∃ a n, s.kind = .zeros a n := by
  have hi := inv_reach h
  refine Classical.byContradiction fun hn => ?_
  have hk : ∀ a n, s.kind ≠ .zeros a n := fun a n e => hn ⟨a, n, e⟩
  by_cases hv : Over s
  · have := (reports_partial h hk hv.1 hv.2).2.2.2.2
    rw [hc] at this; cases this
  · cases ho : s.ok
    · by_cases hr : s.pc = .ret
      · have := (hi.nok ho hr).2.2.2.2.2.2.1; rw [hc] at this; cases this
      · by_cases hs : s.pc = .start
        · have := (hi.st hs).2.2.2.2.1; rw [hc] at this; cases this
        · have := hi.okk hs hr; rw [ho] at this; cases this
    · have := (hi.live ho hv).2.2.2.1; rw [hc] at this; cases this

/-- Nothing freed is ever used, and what is forwarded stays allocated until all of it is complete. -/
theorem alive {s : St} (h : Reach Init Step s) :
    s.bad = false ∧ (0 < s.out → s.ctx = true ∧ s.req = true ∧ (∀ w a, s.kind = .page w a → s.dat = true)) := by
  have hi := inv_reach h
  refine ⟨hi.bad, fun ho => ?_⟩
  have hv : ¬ Over s := fun x => by have := x.2; omega
  have hok : s.ok = true := by
    cases hx : s.ok
    · by_cases hr : s.pc = .ret
      · have := (hi.nok hx hr).1; omega
      · by_cases hs : s.pc = .start
        · have := (hi.st hs).2.1; omega
        · have := hi.okk hs hr; rw [hx] at this; cases this
    · rfl
  have := hi.live hok hv
  exact ⟨this.1, this.2.1, fun w a hk => by rw [this.2.2.2.2.1, hk]; rfl⟩

/-! ## Pages -/

/-- What is written is what the caller's buffer held. -/
theorem page_written {s : St} (h : Reach Init Step s) {a : Nat} (hk : s.kind = .page true a) (ho : s.ok = true) :
    ∀ x ∈ s.sent, x = s.buf := ((inv_reach h).wr a hk ho).2

/-- After a successful read the caller's buffer holds what the device returned. -/
theorem page_read {s : St} (h : Reach Init Step s) {a : Nat} (hk : s.kind = .page false a) (hr : s.rep = [0]) :
    s.buf = s.got := by
  obtain ⟨h1, h2, _⟩ := success_means h hr
  rcases report_once h with h3 | ⟨r, h3, hp, ho, h5, h6⟩
  · rw [h3] at hr; cases hr
  · rw [h3] at hr
    cases hr
    rcases h6 with ⟨hok, _⟩ | ⟨_, _, h6⟩
    · have hl : s.parts = [(a, 4096)] := (single_part h hp hok).2 _ _ hk
      have : s.errs = [0] := by
        rw [hl] at h2
        cases he : s.errs with
        | nil => rw [he] at h2; cases h2
        | cons x l =>
          rw [he] at h1 h2
          have hx := h1 x List.mem_cons_self
          cases l with
          | nil => rw [hx]
          | cons y l => simp at h2
      exact ((inv_reach h).rd a hk hok this).2 ⟨hp, ho⟩
    · cases h6

/-! ## Termination -/

/-- Steps that are left at most. -/
def left (s : St) : Nat :=
  s.out + match s.pc with
    | .start => match s.kind with
      | .flush => 3
      | .page _ _ => 3
      | .discard _ n => 2 * n + 2
      | .zeros _ n => 2 * n + 2
    | .one => 2
    | .loop _ n => 2 * n + 1
    | .ret => 0

theorem put_out (s : St) : (put s).out = s.out := by
  unfold put
  simp only
  split
  · split
    · unfold complete
      simp only
      split <;> rfl
    · rfl
  · rfl

theorem done_out (s : St) (e : Int) (v : Nat) : (done s e v).out = s.out - 1 := by
  unfold done
  simp only
  split
  · split
    · exact put_out _
    · exact put_out _
  · exact put_out _

theorem step_left {s t : St} (h : Step s t) : left t < left s := by
  cases h with
  | submit i h1 =>
    obtain ⟨i1, i2, i3⟩ := i
    unfold left submit fail
    cases hk : s.kind <;> cases i1 <;> cases i2 <;> cases i3 <;> simp [h1] <;> omega
  | act _ h1 h2 =>
    unfold left act
    cases hpc : s.pc with
    | start => exact absurd hpc h1
    | ret => exact absurd hpc h2
    | one => cases hk : s.kind <;> simp [forward] <;> omega
    | loop a n =>
      simp only
      by_cases hn : n = 0
      · rw [if_pos hn]
        simp only [put_out]
        omega
      · rw [if_neg hn, bytes_eq]
        have := lim_pos s.kind
        simp only [forward]
        omega
  | done e v _ h1 =>
    unfold left
    rw [done_out, (done_fields s e v).2.2, (done_fields s e v).2.1]
    omega

/-- Every run ends: it has at most `left s` steps. -/
theorem run_bounded {k : Nat} {s t : St} (h : Run k s t) : k ≤ left s := by
  induction h with
  | nil s => exact Nat.zero_le _
  | cons h _ ih => have := step_left h; omega

/-- A run that can go no further has returned and all parts are complete (so by `reports_partial` it has reported,
unless it is zeroing). -/
theorem stuck_over {s : St} (h : Reach Init Step s) (hs : ∀ t, ¬ Step s t) : s.pc = .ret ∧ s.out = 0 := by
  have hi := inv_reach h
  have h1 : s.pc ≠ .start := fun e => hs _ (Step.submit s ⟨true, true, true⟩ e)
  by_cases hv : Over s
  · exact hv
  · have hc : s.crash = false := by
      cases ho : s.ok
      · by_cases hr : s.pc = .ret
        · exact (hi.nok ho hr).2.2.2.2.2.2.1
        · have := hi.okk h1 hr; rw [ho] at this; cases this
      · exact (hi.live ho hv).2.2.2.1
    have h2 : s.pc = .ret := Classical.byContradiction fun e => hs _ (Step.act s hc h1 e)
    refine ⟨h2, ?_⟩
    cases hq : s.out with
    | zero => rfl
    | succ k => exact absurd (Step.done s 0 0 hc (by omega)) (hs _)

/-- A call that cannot allocate reports once, at once, forwards nothing and keeps nothing. -/
theorem no_memory {s : St} (h : Reach Init Step s) (hs : s.pc = .start) (i : In)
    (hf : i.ctx = false ∨ i.req = false ∨ (i.dat = false ∧ ∃ w a, s.kind = .page w a)) :
    (submit s i).rep = [noMem] ∧ (submit s i).parts = [] ∧ (submit s i).pc = .ret ∧
    (submit s i).ctx = false ∧ (submit s i).req = false ∧ (submit s i).dat = false := by
  have hr := (inv_reach h).st hs
  have hp : s.parts = [] := by
    have := (inv_reach h).parts
    unfold PartsOk at this
    rw [hs] at this
    exact this
  obtain ⟨i1, i2, i3⟩ := i
  unfold submit fail
  rcases hf with rfl | rfl | ⟨rfl, w, a, hk⟩
  · simp [hr, hp]
  · cases i1 <;> simp [hr, hp]
  · cases i1 <;> cases i2 <;> simp [hr, hp, hk]

/-! ## Cases -/

/-- All allocations succeed. -/
def allOk : In := ⟨true, true, true⟩

/-- Before a submission. -/
def s0 (k : Kind) (b : Nat) : St := { kind := k, buf := b }

theorem s0_reach (k : Kind) (b : Nat) : Reach Init Step (s0 k b) := Reach.init ⟨k, b, rfl⟩

/-- A discard of 5 GiB from 1 MiB: two parts, the first completes before the second is forwarded, the second fails. -/
def d5 : St :=
  let s := submit (s0 (.discard 1048576 5368709120) 0) allOk
  done (act (act (done (act s) 0 0))) (-5) 0

theorem d5_reach : Reach Init Step d5 := by
  have h1 := Reach.step (s0_reach (.discard 1048576 5368709120) 0) (Step.submit _ allOk rfl)
  have h2 := Reach.step h1 (Step.act _ (by decide +kernel) (by decide +kernel) (by decide +kernel))
  have h3 := Reach.step h2 (Step.done _ 0 0 (by decide +kernel) (by decide +kernel))
  have h4 := Reach.step h3 (Step.act _ (by decide +kernel) (by decide +kernel) (by decide +kernel))
  have h5 := Reach.step h4 (Step.act _ (by decide +kernel) (by decide +kernel) (by decide +kernel))
  exact Reach.step h5 (Step.done _ (-5) 0 (by decide +kernel) (by decide +kernel))

example : d5.parts = [(1048576, 4294966784), (4296015360, 1073742336)] ∧ d5.rep = [-5] ∧ d5.errs = [0, -5] ∧
    d5.pc = .ret ∧ d5.out = 0 ∧ d5.ctx = false := by decide +kernel

example : hits d5.parts 4296015360 = 1 ∧ hits d5.parts 1048575 = 0 :=
  ⟨(parts_cover d5_reach (a := 1048576) (n := 5368709120) (Or.inl (by decide +kernel)) (by decide +kernel)
      (by decide +kernel) 4296015360).trans
      (by decide +kernel),
    (parts_cover d5_reach (a := 1048576) (n := 5368709120) (Or.inl (by decide +kernel)) (by decide +kernel)
      (by decide +kernel) 1048575).trans
      (by decide +kernel)⟩

example : ∀ p ∈ d5.parts, 512 ∣ p.1 ∧ 512 ∣ p.2 :=
  (parts_aligned d5_reach).1 (by decide +kernel) ⟨2048, rfl⟩ ⟨10485760, rfl⟩

example : (-5 : Int) ∈ d5.errs ∨ ((-5 : Int) = noMem ∧ d5.parts = []) :=
  failure_means d5_reach (by decide +kernel) (by decide)

/-- Zeroing of two pages. -/
def z2 : St := done (act (act (submit (s0 (.zeros 4096 8192) 0) allOk))) 0 0

theorem z2_reach : Reach Init Step z2 := by
  have h1 := Reach.step (s0_reach (.zeros 4096 8192) 0) (Step.submit _ allOk rfl)
  have h2 := Reach.step h1 (Step.act _ (by decide +kernel) (by decide +kernel) (by decide +kernel))
  have h3 := Reach.step h2 (Step.act _ (by decide +kernel) (by decide +kernel) (by decide +kernel))
  exact Reach.step h3 (Step.done _ 0 0 (by decide +kernel) (by decide +kernel))

/-- The zeros are written, the completion is not called, a NULL function is. -/
example : z2.parts = [(4096, 8192)] ∧ z2.errs = [0] ∧ z2.rep = [] ∧ z2.crash = true ∧ z2.ctx = true := by decide +kernel

example : z2.rep = [] := (zeros_never z2_reach (a := 4096) (n := 8192) (by decide +kernel) (by decide +kernel)).1

example : ∃ a n, z2.kind = .zeros a n := crash_zeros z2_reach (by decide +kernel)

/-- Reading a page. -/
def pr (e : Int) (v : Nat) : St := done (act (submit (s0 (.page false 8192) 77) allOk)) e v

theorem pr_reach (e : Int) (v : Nat) : Reach Init Step (pr e v) := by
  have h1 := Reach.step (s0_reach (.page false 8192) 77) (Step.submit _ allOk rfl)
  have h2 := Reach.step h1 (Step.act _ (by decide +kernel) (by decide +kernel) (by decide +kernel))
  exact Reach.step h2 (Step.done _ e v (by decide +kernel) (by decide +kernel))

example : (pr 0 5).buf = 5 ∧ (pr 0 5).rep = [0] := by decide +kernel

example : (pr 0 5).buf = (pr 0 5).got := page_read (pr_reach 0 5) (a := 8192) (by decide +kernel) (by decide +kernel)

/-- When the read fails the caller's buffer is overwritten all the same, with what the page held before. -/
theorem page_error_overwrites : ∃ s, Reach Init Step s ∧ s.kind = .page false 8192 ∧ s.rep = [-5] ∧ s.buf ≠ 77 :=
  ⟨pr (-5) 5, pr_reach _ _, by decide +kernel, by decide +kernel, by decide +kernel⟩

/-- Writing a page. -/
example : (done (act (submit (s0 (.page true 8192) 77) allOk)) 0 0).sent = [77] ∧
    (done (act (submit (s0 (.page true 8192) 77) allOk)) 0 0).rep = [0] := by decide +kernel

/-- A flush without memory for the request. -/
example : (submit (s0 .flush 0) ⟨true, false, true⟩).rep = [noMem] :=
  (no_memory (s0_reach .flush 0) rfl ⟨true, false, true⟩ (Or.inr (Or.inl rfl))).1

/-- A discard of nothing reports at once. -/
example : (act (submit (s0 (.discard 4096 0) 0) allOk)).rep = [0] := by decide +kernel

example : left (s0 (.discard 0 4096) 0) = 8194 := by decide +kernel

end Verif.Submit
