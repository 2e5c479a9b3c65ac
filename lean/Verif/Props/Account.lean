import Verif.Lemma.Account

/-!
C31. Specification: count the lines of a core (of a core within an I/O class) that have a valid,
respectively a dirty, sector, looking at the sectors one by one.
-/

namespace Verif.Account

open Verif.Bits

/-- The lines of core `c` satisfying a property of bitmaps. -/
def linesOf {w} (s : St w) (c : Nat) (f : LineBits w → BitVec w) : Nat :=
  (s.lines.filter fun l =>
    (match l.owner with | some (c', _) => c' == c | none => false) &&
      (List.range w).any fun i => (f l.bits).getLsbD i).length

/-- The lines of core `c` in class `p` satisfying a property of bitmaps. -/
def classLinesOf {w} (s : St w) (c p : Nat) (f : LineBits w → BitVec w) : Nat :=
  (s.lines.filter fun l =>
    (match l.owner with | some (c', p') => c' == c && p' == p | none => false) &&
      (List.range w).any fun i => (f l.bits).getLsbD i).length

theorem any_sector {w} (v : BitVec w) :
    ((List.range w).any fun i => v.getLsbD i) = decide (v ≠ 0#w) := by
  rw [Bool.eq_iff_iff, decide_eq_true_iff, ne_zero_iff, List.any_eq_true]
  constructor
  · rintro ⟨i, h1, h2⟩; exact ⟨i, List.mem_range.1 h1, h2⟩
  · rintro ⟨i, h1, h2⟩; exact ⟨i, List.mem_range.2 h1, h2⟩

theorem linesOf_eq {w} (s : St w) (c : Nat) (f : LineBits w → BitVec w) :
    linesOf s c f = s.lines.countP (fun l => decide (l.owner.map (·.1) = some c) &&
      decide (f l.bits ≠ 0#w)) := by
  rw [linesOf, ← List.countP_eq_length_filter]
  refine List.countP_congr fun l _ => ?_
  rw [any_sector]
  cases l.owner with
  | none => simp
  | some o => simp

theorem classLinesOf_eq {w} (s : St w) (c p : Nat) (f : LineBits w → BitVec w) :
    classLinesOf s c p f = s.lines.countP (fun l => decide (l.owner = some (c, p)) &&
      decide (f l.bits ≠ 0#w)) := by
  rw [classLinesOf, ← List.countP_eq_length_filter]
  refine List.countP_congr fun l _ => ?_
  rw [any_sector]
  cases l.owner with
  | none => simp
  | some o => obtain ⟨a, b⟩ := o; simp

theorem _root_.Verif.Bits.Width.pos {w} (hw : Width w) : 0 < w := by unfold Width at hw; omega

theorem reach_inv {w} (hw : Width w) {wa : Bool} {s : St w} (h : Reach Init (Step wa) s) : Inv s :=
  Reach.inv (P := Inv) (fun _ h => init_inv hw hw.pos h) (fun _ _ hs h => step_inv hw hw.pos hs h) s h

theorem reach_q {w} (hw : Width w) {s : St w} (h : Reach Init (Step false) s) : QInv s :=
  Reach.inv (P := QInv) (fun _ h => init_q hw hw.pos h) (fun _ _ hs h => step_q hw hw.pos hs h) s h

/-- C31, dirty lines: at any time the dirty counter of a core of the cache, and its counter for
each I/O class, is the number of its lines with a dirty sector. No condition on waiters. -/
theorem dirty_exact {w} (hw : Width w) {s : St w} (h : Reach Init (Step true) s) {c : Nat}
    (hc : s.added c = true) :
    s.dirty c = linesOf s c (·.dirty) ∧ ∀ p, s.pdirty c p = classLinesOf s c p (·.dirty) := by
  have hi := reach_inv hw h
  refine ⟨?_, fun p => ?_⟩
  · rw [hi.dir c hc, linesOf_eq]; rfl
  · rw [hi.pdir c p hc, classLinesOf_eq]; rfl

/-- C31, cached lines, what is true of every execution: the cached counter exceeds the number of
lines with a valid sector by the number of times a line with waiters lost its last valid sector,
less the number of times a line without a valid sector was evicted. -/
theorem cached_accounts {w} (hw : Width w) {s : St w} (h : Reach Init (Step true) s) {c : Nat}
    (hc : s.added c = true) :
    s.cached c = linesOf s c (·.valid) + s.skipped c - s.phantom c ∧
    ∀ p, s.pcached c p =
      classLinesOf s c p (·.valid) + s.pskipped c p - s.pphantom c p + s.carried c p := by
  have hi := reach_inv hw h
  refine ⟨?_, fun p => ?_⟩
  · rw [hi.cach c hc, linesOf_eq]; rfl
  · rw [hi.pcach c p hc, classLinesOf_eq]; rfl

/-- C31, cached lines: as long as no request waits for a line while it is being invalidated, the
cached counter of a core, and its counter for each class, is the number of its lines with a valid
sector. Missing from the property: executions with such waiters, for which it is false, see
`cached_drifts`. -/
theorem cached_exact_partial {w} (hw : Width w) {s : St w} (h : Reach Init (Step false) s) {c : Nat}
    (hc : s.added c = true) :
    s.cached c = linesOf s c (·.valid) ∧ ∀ p, s.pcached c p = classLinesOf s c p (·.valid) := by
  have hi := reach_inv hw h
  have hq := reach_q hw h
  refine ⟨?_, fun p => ?_⟩
  · rw [hi.cach c hc, linesOf_eq, (hq.h1 c).1, (hq.h1 c).2, Int.add_zero, Int.sub_zero]; rfl
  · obtain ⟨h1, h2, h3⟩ := hq.h2 c p
    rw [hi.pcach c p hc, classLinesOf_eq, h1, h2, h3, Int.add_zero, Int.sub_zero, Int.add_zero]; rfl

/-- A core reported clean (`dirty_clines` zero, what `ocf_mngt_core_is_dirty` and the flush
operations look at) has no dirty sector. -/
theorem clean_core_no_dirty_sector {w} (hw : Width w) {s : St w} (h : Reach Init (Step true) s) {c : Nat}
    (hc : s.added c = true) (h0 : s.dirty c = 0) :
    ∀ (i : Nat) (l : Line w) p, s.lines[i]? = some l → l.owner = some (c, p) →
      ∀ j, l.bits.dirty.getLsbD j = false := by
  intro i l p hi ho j
  have hd := (reach_inv hw h).dir c hc
  rw [h0] at hd
  have hz : s.lines.countP (qdc c) = 0 := by omega
  rw [List.countP_eq_zero] at hz
  have := hz l (List.mem_of_getElem? hi)
  simp [qdc, ho] at this
  simp [this]

/-- No assertion fires in the status updates: on a mapped line and sectors of it each of them goes
through, and eviction does so exactly on lines without a dirty sector. -/
theorem no_assert {w} (hw : Width w) (s : St w) (i : Nat) (l : Line w) (c p a b : Nat) (wt : Bool)
    (hi : s.lines[i]? = some l) (hab : InLine w a b) :
    (setValid s i l c p a b).isSome ∧ (setDirty s i l c p a b).isSome ∧
    (setClean s i l c p a b).isSome ∧ (setInvalid s i l c p a b wt).isSome ∧
    (purge s i l c p a b wt).isSome ∧
    ((evict s i l c p).isSome ↔ ∀ j, l.bits.dirty.getLsbD j = false) := by
  have hlt := lt_of_get hi
  have hinv : ∀ (s : St w) (l : Line w), (setInvalid s i l c p a b wt).isSome := by
    intro s l
    obtain ⟨v, hv, _⟩ := clearValid_eq hw hab l.bits
    simp only [setInvalid, hv, Option.bind_eq_bind, Option.bind_some]
    by_cases h : v = 0#w
    · simp only [h]; grind
    · simp [h]
  refine ⟨?_, ?_, ?_, hinv s l, ?_, ?_⟩
  · obtain ⟨v, hv, _⟩ := setValid_eq hw hab l.bits
    simp only [setValid, hv, Option.bind_eq_bind, Option.bind_some]
    grind
  · obtain ⟨d, ch, hd, _⟩ := setDirty_eq hw hab l.bits
    simp only [setDirty, hd, Option.bind_eq_bind, Option.bind_some]
    grind
  · obtain ⟨d, ch, hd, _⟩ := clearDirty_eq hw hab l.bits
    simp only [setClean, hd, Option.bind_eq_bind, Option.bind_some]
    grind
  · obtain ⟨d, ch, hd, _⟩ := clearDirty_eq hw hab l.bits
    have : ∃ t, setClean s i l c p a b = some t ∧ i < t.lines.length := by
      simp only [setClean, hd, Option.bind_eq_bind, Option.bind_some]
      split
      · split <;> exact ⟨_, rfl, by simpa [St.put] using hlt⟩
      · exact ⟨_, rfl, by simpa [St.put] using hlt⟩
    obtain ⟨t, ht, hl⟩ := this
    simp only [purge, ht, Option.bind_eq_bind, Option.bind_some, List.getElem?_eq_getElem hl]
    exact hinv _ _
  · simp only [evict, testAny hw hw.pos, clearAll_eq hw hw.pos, Option.bind_eq_bind, Option.bind_some]
    by_cases hd : l.bits.dirty = 0#w
    · simp [hd]
    · simp only [ne_eq, hd, not_false_eq_true, decide_true, if_true, Option.isSome_none]
      constructor
      · intro h; cases h
      · intro h
        obtain ⟨j, _, hj⟩ := (ne_zero_iff _).1 hd
        rw [h j] at hj; cases hj

/-- Moving a line leaves it in the new class with the same sectors valid and dirty. -/
theorem repart_moves {w} (hw : Width w) (s : St w) (i : Nat) (l : Line w) (c p q : Nat)
    (h : Holds s i l c p) :
    ∃ t, repart s i l c p q = some t ∧ t.lines = s.lines.set i { l with owner := some (c, q) } := by
  obtain ⟨hi, ho⟩ := h
  simp only [repart, testAny hw hw.pos, Option.bind_eq_bind, Option.bind_some]
  split
  · rename_i hpq
    refine ⟨s, rfl, ?_⟩
    apply List.ext_getElem?
    intro j
    rw [List.getElem?_set]
    have hlt := lt_of_get hi
    split
    · rename_i hij
      subst hij
      rw [hi, ← hpq, ← ho]
    · rfl
  · exact ⟨_, rfl, rfl⟩

/-! Concrete executions: one cache line of eight sectors, core 0, class 0. -/

/-- An empty cache of one line with core 0. -/
def start : St 8 := rebuilt [⟨init 8, none, false⟩] (fun c => c == 0)

theorem start_init : Init start :=
  .mk [⟨init 8, none⟩] _ _ rfl (by intro l hl c p ho; simp at hl; subst hl; cases ho)

/-- A line as the examples use it. -/
def ln (v d : Nat) (f : Bool) : Line 8 := ⟨⟨BitVec.ofNat 8 v, BitVec.ofNat 8 d⟩, some (0, 0), f⟩

theorem width8 : Width 8 := by unfold Width; omega

/-- C31 is false in general. A request (say a read that will fill the line) waits for a line while
a write in write-invalidate mode drops its only valid sectors: the line is kept for the waiter, but
not discounted; the waiter then makes it valid again and it is counted a second time. -/
theorem cached_drifts : ∃ s : St 8, Reach Init (Step true) s ∧ s.added 0 = true ∧
    s.cached 0 = 2 ∧ linesOf s 0 (·.valid) = 1 := by
  have h0 := Reach.init (step := Step true) start_init
  have h1 := Reach.step h0 (Step.map 0 ⟨init 8, none, false⟩ 0 0 rfl rfl rfl)
  have h2 := Reach.step h1 (Step.valid 0 (ln 0 0 true) 0 0 0 7 ⟨rfl, rfl⟩ ⟨by decide, by decide⟩ rfl)
  have h3 := Reach.step h2 (Step.release 0 (ln 255 0 true) 0 0 ⟨rfl, rfl⟩ (by decide))
  have h4 := Reach.step h3 (Step.purge 0 (ln 255 0 false) 0 0 0 7 true (fun _ => rfl) ⟨rfl, rfl⟩
    ⟨by decide, by decide⟩ rfl)
  have h5 := Reach.step h4 (Step.valid 0 (ln 0 0 false) 0 0 0 7 ⟨rfl, rfl⟩ ⟨by decide, by decide⟩ rfl)
  exact ⟨_, h5, rfl, rfl, rfl⟩

/-- The counter even becomes negative, which the statistics report as about four billion lines:
filling a new line fails while another request waits for it (the line stays mapped without a valid
sector, rightly not counted), and the line is evicted later on. -/
theorem cached_negative : ∃ s : St 8, Reach Init (Step true) s ∧ s.added 0 = true ∧
    s.cached 0 = -1 ∧ linesOf s 0 (·.valid) = 0 := by
  have h0 := Reach.init (step := Step true) start_init
  have h1 := Reach.step h0 (Step.map 0 ⟨init 8, none, false⟩ 0 0 rfl rfl rfl)
  have h2 := Reach.step h1 (Step.purge 0 (ln 0 0 true) 0 0 0 7 true (fun _ => rfl) ⟨rfl, rfl⟩
    ⟨by decide, by decide⟩ rfl)
  have h3 := Reach.step h2 (Step.evict 0 (ln 0 0 false) 0 0 ⟨rfl, rfl⟩ rfl rfl)
  exact ⟨_, h3, rfl, rfl, rfl⟩

/-- Hypotheses of the theorems are met with non-trivial counts: a line filled, made dirty in part,
moved to another class, then cleaned in part. -/
example : ∃ s : St 8, Reach Init (Step false) s ∧ s.added 0 = true ∧
    s.cached 0 = 1 ∧ s.pcached 0 3 = 1 ∧ s.pcached 0 0 = 0 ∧ s.dirty 0 = 1 ∧ s.pdirty 0 3 = 1 ∧
    linesOf s 0 (·.valid) = 1 ∧ classLinesOf s 0 3 (·.dirty) = 1 := by
  have h0 := Reach.init (step := Step false) start_init
  have h1 := Reach.step h0 (Step.map 0 ⟨init 8, none, false⟩ 0 0 rfl rfl rfl)
  have h2 := Reach.step h1 (Step.valid 0 (ln 0 0 true) 0 0 0 7 ⟨rfl, rfl⟩ ⟨by decide, by decide⟩ rfl)
  have h3 := Reach.step h2 (Step.dirty 0 (ln 255 0 true) 0 0 2 4 ⟨rfl, rfl⟩ ⟨by decide, by decide⟩
    rfl rfl)
  have h4 := Reach.step h3 (Step.release 0 (ln 255 28 true) 0 0 ⟨rfl, rfl⟩ (by decide))
  have h5 := Reach.step h4 (Step.repart 0 (ln 255 28 false) 0 0 3 ⟨rfl, rfl⟩ rfl rfl)
  have h6 := Reach.step h5 (Step.clean 0 ⟨⟨255#8, 28#8⟩, some (0, 3), false⟩ 0 3 0 3 ⟨rfl, rfl⟩
    ⟨by decide, by decide⟩ rfl)
  exact ⟨_, h6, rfl, rfl, rfl, rfl, rfl, rfl, rfl, rfl⟩

/-- Rebuilding from the device: one line dirty in part, one clean, one unmapped. -/
example : ∃ s : St 8, Init s ∧ s.cached 1 = 1 ∧ s.dirty 1 = 1 ∧ linesOf s 1 (·.valid) = 1 :=
  ⟨_, .mk [⟨⟨255#8, 3#8⟩, some 1⟩, ⟨⟨15#8, 0#8⟩, some 1⟩, ⟨⟨0#8, 0#8⟩, none⟩]
    [⟨⟨3#8, 3#8⟩, some (1, 0), false⟩, ⟨init 8, none, false⟩, ⟨init 8, none, false⟩]
    (fun _ => true) rfl (fun _ _ _ _ _ => rfl), rfl, rfl, rfl⟩

example : InLine 8 2 5 ∧ Width 8 := ⟨⟨by decide, by decide⟩, width8⟩

end Verif.Account
