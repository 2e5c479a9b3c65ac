import Verif.Lemma.Bits

/-!
C03. Specification: the status of a line is a pair of predicates on sector numbers; the
operations are described sector by sector.
-/

namespace Verif.Bits

/-- Sector `i` is reported valid / dirty. -/
def LineBits.isValid {w} (l : LineBits w) (i : Nat) : Prop := l.valid.getLsbD i = true
def LineBits.isDirty {w} (l : LineBits w) (i : Nat) : Prop := l.dirty.getLsbD i = true

/-- Setting a range sets exactly the sectors of the range and reports whether any sector of the
whole line was set before. -/
theorem setBits_exact {w a b} (hw : Width w) (hab : a ≤ b) (hb : b < w) (m : BitVec w) :
    ∃ m' r, setBits m a b = some (m', r) ∧
      (∀ i, i < w → (m'.getLsbD i = true ↔ (a ≤ i ∧ i ≤ b) ∨ m.getLsbD i = true)) ∧
      (r = true ↔ ∃ i, i < w ∧ m.getLsbD i = true) := by
  obtain ⟨k, hk, hbit⟩ := typeMask_bit hw hab hb
  refine ⟨_, _, by simp only [setBits, hk, Option.map_some]; rfl, ?_, ?_⟩
  · intro i hi
    simp only [BitVec.getLsbD_or, hbit i hi, Bool.or_eq_true, decide_eq_true_eq]
    exact or_comm
  · rw [decide_eq_true_iff]; exact ne_zero_iff m

/-- Clearing a range clears exactly the sectors of the range and reports whether any sector of
the whole line is left. -/
theorem clearBits_exact {w a b} (hw : Width w) (hab : a ≤ b) (hb : b < w) (m : BitVec w) :
    ∃ m' r, clearBits m a b = some (m', r) ∧
      (∀ i, i < w → (m'.getLsbD i = true ↔ ¬ (a ≤ i ∧ i ≤ b) ∧ m.getLsbD i = true)) ∧
      (r = true ↔ ∃ i, i < w ∧ ¬ (a ≤ i ∧ i ≤ b) ∧ m.getLsbD i = true) := by
  obtain ⟨k, hk, hbit⟩ := typeMask_bit hw hab hb
  have hbits : ∀ i, i < w → ((m &&& ~~~k).getLsbD i = true ↔ ¬ (a ≤ i ∧ i ≤ b) ∧ m.getLsbD i = true) := by
    intro i hi
    simp only [BitVec.getLsbD_and, BitVec.getLsbD_not, hi, decide_true, Bool.true_and, hbit i hi,
      Bool.and_eq_true, Bool.not_eq_true', decide_eq_false_iff_not]
    exact and_comm
  refine ⟨_, _, by simp only [clearBits, hk, Option.map_some]; rfl, hbits, ?_⟩
  rw [decide_eq_true_iff, ne_zero_iff]
  constructor
  · rintro ⟨i, hi, h⟩; exact ⟨i, hi, (hbits i hi).1 h⟩
  · rintro ⟨i, hi, h⟩; exact ⟨i, hi, (hbits i hi).2 h⟩

/-- Testing a range: `all` asks whether every sector of the range is set, otherwise whether some
sector of the range is. -/
theorem testBits_exact {w a b} (hw : Width w) (hab : a ≤ b) (hb : b < w) (m : BitVec w) (all : Bool) :
    ∃ r, testBits m a b all = some r ∧
      (r = true ↔ if all then ∀ i, a ≤ i → i ≤ b → m.getLsbD i = true
        else ∃ i, a ≤ i ∧ i ≤ b ∧ m.getLsbD i = true) := by
  obtain ⟨k, hk, hbit⟩ := typeMask_bit hw hab hb
  refine ⟨_, by simp only [testBits, hk, Option.map_some]; rfl, ?_⟩
  cases all
  · simp only [Bool.false_eq_true, if_false, decide_eq_true_iff, ne_zero_iff, BitVec.getLsbD_and,
      Bool.and_eq_true]
    constructor
    · rintro ⟨i, hi, h1, h2⟩
      rw [hbit i hi, decide_eq_true_iff] at h2
      exact ⟨i, h2.1, h2.2, h1⟩
    · rintro ⟨i, h1, h2, h3⟩
      have hi : i < w := by omega
      exact ⟨i, hi, h3, by rw [hbit i hi, decide_eq_true_iff]; exact ⟨h1, h2⟩⟩
  · simp only [if_true, decide_eq_true_iff]
    constructor
    · intro h i h1 h2
      have hi : i < w := by omega
      have := congrArg (·.getLsbD i) h
      simp only [BitVec.getLsbD_and, hbit i hi] at this
      simpa [h1, h2] using this
    · intro h
      apply BitVec.eq_of_getLsbD_eq
      intro i hi
      rw [BitVec.getLsbD_and, hbit i hi]
      by_cases hr : a ≤ i ∧ i ≤ b
      · simp [h i hr.1 hr.2]
      · simp [hr]

/-- Testing outside a range. -/
theorem testOut_exact {w a b} (hw : Width w) (hab : a ≤ b) (hb : b < w) (m : BitVec w) :
    ∃ r, testOut m a b = some r ∧
      (r = true ↔ ∃ i, i < w ∧ ¬ (a ≤ i ∧ i ≤ b) ∧ m.getLsbD i = true) := by
  obtain ⟨m', r, h, _, hr⟩ := clearBits_exact hw hab hb m
  refine ⟨r, ?_, hr⟩
  unfold clearBits at h
  unfold testOut
  cases hk : typeMask w a b with
  | none => rw [hk] at h; simp at h
  | some k => rw [hk] at h; simp only [Option.map_some, Option.some.injEq, Prod.mk.injEq] at h ⊢; exact h.2

/-- `test_and_set` / `test_and_clear` are the test followed by the set / clear. -/
theorem testAndSet_exact {w} (m : BitVec w) (a b : Nat) (all : Bool) :
    testAndSet m a b all = (do let t ← testBits m a b all; let (m', _) ← setBits m a b; some (m', t)) := by
  unfold testAndSet testBits setBits
  cases typeMask w a b <;> rfl

theorem testAndClear_exact {w} (m : BitVec w) (a b : Nat) (all : Bool) :
    testAndClear m a b all = (do let t ← testBits m a b all; let (m', _) ← clearBits m a b; some (m', t)) := by
  unfold testAndClear testBits clearBits
  cases typeMask w a b <;> rfl

/-- The sector range an update names lies inside the line. -/
def InRange (w : Nat) : Update → Prop
  | .valid a b | .write a b | .clean a b | .purge a b => a ≤ b ∧ b < w
  | _ => True

/-- Specification of the validity of sector `i` after an update, given validity `V` and
dirtiness `D` before. -/
def specValid (w : Nat) (V D : Nat → Prop) (i : Nat) : Update → Prop
  | .valid a b | .write a b => (a ≤ i ∧ i ≤ b) ∨ V i
  | .clean _ _ => V i
  | .purge a b => ¬ (a ≤ i ∧ i ≤ b) ∧ V i
  | .evict => (∃ j, j < w ∧ D j) ∧ V i
  | .sparse => False
  | .recover => V i ∧ D i

/-- Specification of the dirtiness of sector `i` after an update. -/
def specDirty (D : Nat → Prop) (i : Nat) : Update → Prop
  | .write a b => (a ≤ i ∧ i ≤ b) ∨ D i
  | .clean a b | .purge a b => ¬ (a ≤ i ∧ i ≤ b) ∧ D i
  | .sparse => False
  | _ => D i

/-- C03, per update: every update with a range inside the line succeeds (no assertion fires) and
changes exactly the sectors it names. -/
theorem apply_exact {w} (hw : Width w) (l : LineBits w) (u : Update) (hu : InRange w u) :
    ∃ l', apply l u = some l' ∧ ∀ i, i < w →
      (l'.isValid i ↔ specValid w l.isValid l.isDirty i u) ∧
      (l'.isDirty i ↔ specDirty l.isDirty i u) := by
  have hw0 : 0 < w := by rcases hw with h | h | h | h | h <;> omega
  have hall : ∀ i, i < w → (0 ≤ i ∧ i ≤ w - 1) := fun i hi => by omega
  cases u with
  | valid a b =>
    obtain ⟨m', r, h, hb, _⟩ := setBits_exact hw hu.1 hu.2 l.valid
    exact ⟨⟨m', l.dirty⟩, by simp [apply, setValidSecChanged, h], fun i hi => ⟨hb i hi, Iff.rfl⟩⟩
  | write a b =>
    obtain ⟨m', r, h, hb, _⟩ := setBits_exact hw hu.1 hu.2 l.valid
    obtain ⟨t, ht, _⟩ := testBits_exact hw hu.1 hu.2 l.dirty true
    obtain ⟨d', r', h', hb', _⟩ := setBits_exact hw hu.1 hu.2 l.dirty
    exact ⟨⟨m', d'⟩, by simp [apply, setValidSecChanged, setDirtySecChanged, h, ht, h'],
      fun i hi => ⟨hb i hi, hb' i hi⟩⟩
  | clean a b =>
    obtain ⟨t, ht, _⟩ := testBits_exact hw hu.1 hu.2 l.dirty false
    obtain ⟨d', r', h', hb', _⟩ := clearBits_exact hw hu.1 hu.2 l.dirty
    exact ⟨⟨l.valid, d'⟩, by simp [apply, clearDirtySecChanged, ht, h'],
      fun i hi => ⟨Iff.rfl, hb' i hi⟩⟩
  | purge a b =>
    obtain ⟨t, ht, _⟩ := testBits_exact hw hu.1 hu.2 l.dirty false
    obtain ⟨d', r', h', hb', _⟩ := clearBits_exact hw hu.1 hu.2 l.dirty
    obtain ⟨t2, ht2, _⟩ := testBits_exact hw (Nat.zero_le (w - 1)) (by omega) l.valid false
    obtain ⟨v', r2, h2, hb2, _⟩ := clearBits_exact hw hu.1 hu.2 l.valid
    exact ⟨⟨v', d'⟩, by simp [apply, clearDirtySecChanged, clearValidSecChanged, ht, h', ht2, h2],
      fun i hi => ⟨hb2 i hi, hb' i hi⟩⟩
  | evict =>
    by_cases hd : l.dirty = 0#w
    · obtain ⟨v', r2, h2, hb2, _⟩ := clearBits_exact hw (Nat.zero_le (w - 1)) (by omega) l.valid
      refine ⟨⟨v', l.dirty⟩, by simp [apply, hd, h2], fun i hi => ⟨?_, Iff.rfl⟩⟩
      have h0 : ∀ j, ¬ l.isDirty j := by intro j; simp [LineBits.isDirty, hd]
      have := hb2 i hi
      simp only [hall i hi, and_self, not_true_eq_false, false_and] at this
      simp only [LineBits.isValid, this, specValid, h0, and_false, exists_false, false_and]
    · refine ⟨l, by simp [apply, hd], fun i hi => ⟨?_, Iff.rfl⟩⟩
      have := (ne_zero_iff l.dirty).1 hd
      constructor
      · exact fun h => ⟨this, h⟩
      · exact fun h => h.2
  | sparse =>
    obtain ⟨t2, ht2, _⟩ := testBits_exact hw (Nat.zero_le (w - 1)) (by omega) l.valid false
    obtain ⟨v', r2, h2, hb2, _⟩ := clearBits_exact hw (Nat.zero_le (w - 1)) (by omega) l.valid
    obtain ⟨d', r', h', hb', _⟩ := clearBits_exact hw (Nat.zero_le (w - 1)) (by omega) l.dirty
    refine ⟨⟨v', d'⟩, by simp [apply, clearValidSecChanged, ht2, h2, h'], fun i hi => ⟨?_, ?_⟩⟩
    · simp only [LineBits.isValid, hb2 i hi, specValid, hall i hi, and_self, not_true_eq_false, false_and]
    · simp only [LineBits.isDirty, hb' i hi, specDirty, hall i hi, and_self, not_true_eq_false, false_and]
  | recover =>
    obtain ⟨k, hk, hbit⟩ := typeMask_bit hw (Nat.zero_le (w - 1)) (by omega)
    refine ⟨⟨l.valid &&& ((k &&& l.dirty) ||| ~~~k), l.dirty⟩,
      by simp [apply, clearValidIfClean, hk], fun i hi => ⟨?_, Iff.rfl⟩⟩
    simp only [LineBits.isValid, LineBits.isDirty, specValid, BitVec.getLsbD_and, BitVec.getLsbD_or, BitVec.getLsbD_not, hbit i hi, hi]
    simp [Nat.le_sub_one_of_lt hi]

/-- C03, summaries: making a range dirty reports whether some sector of it was not dirty yet, and
whether the line had a dirty sector before. -/
theorem setDirtySecChanged_summary {w a b} (hw : Width w) (hab : a ≤ b) (hb : b < w) (l : LineBits w) :
    ∃ l' c d, setDirtySecChanged l a b = some (l', c, d) ∧
      (c = true ↔ ∃ i, a ≤ i ∧ i ≤ b ∧ ¬ l.isDirty i) ∧
      (d = true ↔ ∃ i, i < w ∧ l.isDirty i) := by
  obtain ⟨t, ht, h1⟩ := testBits_exact hw hab hb l.dirty true
  obtain ⟨d', r', h', _, hr⟩ := setBits_exact hw hab hb l.dirty
  refine ⟨⟨l.valid, d'⟩, !t, r', by simp [setDirtySecChanged, ht, h'], ?_, hr⟩
  simp only [if_true] at h1
  unfold LineBits.isDirty
  cases t
  · simp only [Bool.false_eq_true, false_iff] at h1
    simp only [Bool.not_false, true_iff]
    apply Classical.byContradiction
    intro hn
    apply h1
    intro i hi1 hi2
    apply Classical.byContradiction
    exact fun hx => hn ⟨i, hi1, hi2, hx⟩
  · simp only [true_iff] at h1
    simp only [Bool.not_true, Bool.false_eq_true, false_iff]
    rintro ⟨i, hi1, hi2, hx⟩
    exact hx (h1 i hi1 hi2)

/-- C03, summaries: cleaning a range reports whether some sector of it was dirty, and whether the
line has no dirty sector left. -/
theorem clearDirtySecChanged_summary {w a b} (hw : Width w) (hab : a ≤ b) (hb : b < w) (l : LineBits w) :
    ∃ l' c d, clearDirtySecChanged l a b = some (l', c, d) ∧
      (c = true ↔ ∃ i, a ≤ i ∧ i ≤ b ∧ l.isDirty i) ∧
      (d = true ↔ ∀ i, i < w → ¬ l'.isDirty i) := by
  obtain ⟨t, ht, h1⟩ := testBits_exact hw hab hb l.dirty false
  obtain ⟨d', r', h', hb', hr⟩ := clearBits_exact hw hab hb l.dirty
  refine ⟨⟨l.valid, d'⟩, t, !r', by simp [clearDirtySecChanged, ht, h'], by simpa [LineBits.isDirty] using h1, ?_⟩
  unfold LineBits.isDirty
  cases r'
  · simp only [Bool.false_eq_true, false_iff] at hr
    simp only [Bool.not_false, true_iff]
    intro i hi hx
    exact hr ⟨i, hi, (hb' i hi).1 hx⟩
  · simp only [true_iff] at hr
    obtain ⟨i, hi, hx⟩ := hr
    simp only [Bool.not_true, Bool.false_eq_true, false_iff]
    exact fun h => h i hi ((hb' i hi).2 hx)

/-- C03, summaries: making a range valid reports whether the line had no valid sector before. -/
theorem setValidSecChanged_summary {w a b} (hw : Width w) (hab : a ≤ b) (hb : b < w) (l : LineBits w) :
    ∃ l' c, setValidSecChanged l a b = some (l', c) ∧
      (c = true ↔ ∀ i, i < w → ¬ l.isValid i) := by
  obtain ⟨d', r', h', _, hr⟩ := setBits_exact hw hab hb l.valid
  refine ⟨⟨d', l.dirty⟩, !r', by simp [setValidSecChanged, h'], ?_⟩
  unfold LineBits.isValid
  cases r'
  · simp only [Bool.false_eq_true, false_iff] at hr
    simp only [Bool.not_false, true_iff]
    exact fun i hi hx => hr ⟨i, hi, hx⟩
  · simp only [true_iff] at hr
    obtain ⟨i, hi, hx⟩ := hr
    simp only [Bool.not_true, Bool.false_eq_true, false_iff]
    exact fun h => h i hi hx

/-- C03, summaries: invalidating a range reports whether the line had a valid sector and has none
left, and whether one is left. -/
theorem clearValidSecChanged_summary {w a b} (hw : Width w) (hab : a ≤ b) (hb : b < w) (l : LineBits w) :
    ∃ l' c d, clearValidSecChanged l a b = some (l', c, d) ∧
      (c = true ↔ (∃ i, i < w ∧ l.isValid i) ∧ ∀ i, i < w → ¬ l'.isValid i) ∧
      (d = true ↔ ∃ i, i < w ∧ l'.isValid i) := by
  have hw0 : 0 < w := by omega
  obtain ⟨t, ht, h1⟩ := testBits_exact hw (Nat.zero_le (w - 1)) (by omega) l.valid false
  obtain ⟨d', r', h', hb', hr⟩ := clearBits_exact hw hab hb l.valid
  have hr' : r' = true ↔ ∃ i, i < w ∧ d'.getLsbD i = true := by
    rw [hr]
    constructor
    · rintro ⟨i, hi, h⟩; exact ⟨i, hi, (hb' i hi).2 h⟩
    · rintro ⟨i, hi, h⟩; exact ⟨i, hi, (hb' i hi).1 h⟩
  have ht' : t = true ↔ ∃ i, i < w ∧ l.valid.getLsbD i = true := by
    rw [h1]
    simp only [Bool.false_eq_true, if_false]
    constructor
    · rintro ⟨i, _, h2, h3⟩; exact ⟨i, by omega, h3⟩
    · rintro ⟨i, h2, h3⟩; exact ⟨i, by omega, by omega, h3⟩
  refine ⟨⟨d', l.dirty⟩, t && !r', r', by simp [clearValidSecChanged, ht, h'], ?_, hr'⟩
  unfold LineBits.isValid
  rw [Bool.and_eq_true, ht']
  refine and_congr_right fun _ => ?_
  cases r'
  · simp only [Bool.false_eq_true, false_iff] at hr'
    simp only [Bool.not_false, true_iff]
    exact fun i hi hx => hr' ⟨i, hi, hx⟩
  · simp only [true_iff] at hr'
    obtain ⟨i, hi, hx⟩ := hr'
    simp only [Bool.not_true, Bool.false_eq_true, false_iff]
    exact fun h => h i hi hx

/-- Running a sequence of updates. -/
def run {w} (l : LineBits w) : List Update → Option (LineBits w)
  | [] => some l
  | u :: us => (apply l u).bind (run · us)

/-- C03: after any sequence of in-range updates no assertion has fired and no sector is dirty
but not valid; `ocf_metadata_check` therefore accepts the line. -/
theorem run_dirty_imp_valid {w} (hw : Width w) (us : List Update) (hus : ∀ u ∈ us, InRange w u) :
    ∃ l, run (init w) us = some l ∧ (∀ i, i < w → l.isDirty i → l.isValid i) ∧ check l = true := by
  have hcheck : ∀ l : LineBits w, (∀ i, i < w → l.isDirty i → l.isValid i) → check l = true := by
    intro l h
    simp only [check, decide_eq_true_iff]
    apply BitVec.eq_of_getLsbD_eq
    intro i hi
    have := h i hi
    unfold LineBits.isDirty LineBits.isValid at this
    simp only [BitVec.getLsbD_and, BitVec.getLsbD_not, hi, decide_true, Bool.true_and,
      BitVec.getLsbD_zero]
    cases hd : l.dirty.getLsbD i <;> simp_all
  have main : ∀ (us : List Update) (l : LineBits w), (∀ u ∈ us, InRange w u) →
      (∀ i, i < w → l.isDirty i → l.isValid i) →
      ∃ l', run l us = some l' ∧ ∀ i, i < w → l'.isDirty i → l'.isValid i := by
    intro us
    induction us with
    | nil => intro l _ h; exact ⟨l, rfl, h⟩
    | cons u us ih =>
      intro l hus hl
      have hu : InRange w u := hus u (by simp)
      obtain ⟨l', h1, h2⟩ := apply_exact hw l u hu
      have hl' : ∀ i, i < w → l'.isDirty i → l'.isValid i := by
        intro i hi hd
        obtain ⟨hv, hdd⟩ := h2 i hi
        rw [hdd] at hd
        rw [hv]
        cases u <;> simp only [specValid, specDirty] at hd ⊢
        · exact Or.inr (hl i hi hd)
        · exact hd.imp_right (hl i hi)
        · exact hl i hi hd.2
        · exact ⟨hd.1, hl i hi hd.2⟩
        · exact ⟨⟨i, hi, hd⟩, hl i hi hd⟩
        · exact ⟨hl i hi hd, hd⟩
      obtain ⟨l'', h3, h4⟩ := ih l' (fun v hv => hus v (by simp [hv])) hl'
      exact ⟨l'', by simp [run, h1, h3], h4⟩
  obtain ⟨l, h1, h2⟩ := main us (init w) hus (by
    intro i _ h; simp [LineBits.isDirty, init] at h)
  exact ⟨l, h1, h2, hcheck l h2⟩

/-- The assertion does fire for ranges outside the line computation width, so the range
hypotheses are not idle. -/
theorem setBits_bug_of_bad_range {w} (m : BitVec w) {a b} (h : b < a ∨ maskWidth w ≤ b) :
    setBits m a b = none := by
  simp only [setBits, typeMask, getMask]
  have : ¬ (a < maskWidth w ∧ b < maskWidth w ∧ a ≤ b) := by omega
  by_cases h1 : a ≥ maskWidth w
  · simp [h1]
  · by_cases h2 : b ≥ maskWidth w
    · simp [h1, h2]
    · have h3 : b < a := by omega
      simp [h1, h2, h3]

/-! Non-vacuity -/
example : run (init 8) [.write 2 5, .clean 3 4, .purge 5 7] = some ⟨0x1c#8, 0x04#8⟩ := by decide
example : run (init 128) [.write 60 70, .purge 64 64] =
    some ⟨0x7ef000000000000000#128, 0x7ef000000000000000#128⟩ := by decide

end Verif.Bits
