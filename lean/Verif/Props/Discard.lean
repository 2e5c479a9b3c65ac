import Verif.Model.Discard
import Verif.Lemma.Common

/-! Property C40: discard. -/

namespace Verif.Discard

/-! ### Specification -/

/-- The discarded sectors of the core. -/
def InRange (c : Conf) (x : Nat) : Prop := c.sector ≤ x ∧ x < c.sector + c.nr

/-- A supported geometry and a range that is not empty. -/
def Ok (c : Conf) : Prop := (c.S = 8 ∨ c.S = 16 ∨ c.S = 32 ∨ c.S = 64 ∨ c.S = 128) ∧ 0 < c.nr

/-- Sector `x` of the core has a cached copy. -/
def Cached (c : Conf) (k : Cache) (x : Nat) : Prop := k.valid (x / c.S) (x % c.S) = true

/-- Valid sectors belong to mapped lines. -/
def Wf (c : Conf) (k : Cache) : Prop := ∀ l b, b < c.S → k.valid l b = true → k.mapped l = true

/-- What other requests may do if none of them uses the discarded range: anything outside of the range;
cached copies in the range may only disappear. -/
def Quiet (c : Conf) (k k' : Cache) : Prop :=
  (Wf c k → Wf c k') ∧ ∀ x, InRange c x → Cached c k' x → Cached c k x

/-- Other requests may do anything. -/
def Anything (_ _ : Cache) : Prop := True

/-! ### Arithmetic -/

theorem lex {S a l b : Nat} (hb : b < S) :
    a ≤ l * S + b ↔ a / S ≤ l ∧ (l = a / S → a % S ≤ b) := by
  have h1 := Nat.div_add_mod a S
  have h2 := Nat.mod_lt a (by omega : S > 0)
  rw [Nat.mul_comm] at h1
  constructor
  · intro h
    refine ⟨?_, ?_⟩
    · apply Nat.le_of_lt_succ
      rw [Nat.div_lt_iff_lt_mul (by omega), Nat.succ_mul]
      omega
    · rintro rfl
      omega
  · rintro ⟨h3, h4⟩
    rcases Nat.lt_or_ge (a / S) l with h | h
    · have : (a / S + 1) * S ≤ l * S := Nat.mul_le_mul_right _ h
      rw [Nat.add_mul] at this
      omega
    · have e : l = a / S := by omega
      have := h4 e
      rw [e]
      omega

theorem lex' {S e l b : Nat} (hb : b < S) :
    l * S + b ≤ e ↔ l ≤ e / S ∧ (l = e / S → b ≤ e % S) := by
  have h1 := Nat.div_add_mod e S
  have h2 := Nat.mod_lt e (by omega : S > 0)
  rw [Nat.mul_comm] at h1
  constructor
  · intro h
    refine ⟨?_, ?_⟩
    · rw [Nat.le_div_iff_mul_le (by omega)]; omega
    · rintro rfl
      omega
  · rintro ⟨h3, h4⟩
    rcases Nat.lt_or_ge l (e / S) with h | h
    · have : (l + 1) * S ≤ e / S * S := Nat.mul_le_mul_right _ h
      rw [Nat.add_mul] at this
      omega
    · have e' : l = e / S := by omega
      have := h4 e'
      rw [e'] at *
      omega

/-- Sectors of a step. -/
def Conf.n (c : Conf) (h : Nat) : Nat := min (c.nr - h) 1024

theorem bytes_eq (c : Conf) (h : Nat) : c.bytes h = c.n h * 512 := by
  unfold Conf.bytes Conf.n maxTrim
  omega

theorem bytes_div (c : Conf) (h : Nat) : c.bytes h / 512 = c.n h := by
  rw [bytes_eq]; omega

theorem n_pos {c : Conf} {h : Nat} (hh : h < c.nr) : 0 < c.n h ∧ h + c.n h ≤ c.nr := by
  unfold Conf.n; omega

theorem div_sec {S a : Nat} : a / (512 * S) = a / 512 / S := by rw [Nat.div_div_eq_div_mul]

theorem first_eq (c : Conf) (h : Nat) : c.first h = (c.sector + h) / c.S := by
  unfold Conf.first Conf.line Conf.addr
  rw [div_sec]
  congr 1
  omega

theorem last_eq {c : Conf} {h : Nat} (hh : h < c.nr) :
    (c.addr h + c.bytes h - 1) / 512 = c.sector + h + c.n h - 1 := by
  have := n_pos hh
  unfold Conf.addr
  rw [bytes_eq]
  omega

theorem count_eq {c : Conf} {h : Nat} (hh : h < c.nr) :
    c.count h = (c.sector + h + c.n h - 1) / c.S - (c.sector + h) / c.S + 1 := by
  unfold Conf.count
  rw [first_eq]
  unfold Conf.line
  rw [div_sec, last_eq hh]

/-- The bits chosen for a step are exactly its sectors. -/
theorem bits_exact {c : Conf} {h l b : Nat} (hh : h < c.nr) (hb : b < c.S) :
    (c.first h ≤ l ∧ l < c.first h + c.count h ∧ c.startBit h (l - c.first h) ≤ b ∧
      b ≤ c.endBit h (l - c.first h)) ↔
    (c.sector + h ≤ l * c.S + b ∧ l * c.S + b < c.sector + h + c.n h) := by
  have hn := n_pos hh
  have h1 := lex (a := c.sector + h) (l := l) hb
  have h2 := lex' (e := c.sector + h + c.n h - 1) (l := l) hb
  have hm : (c.sector + h) / c.S ≤ (c.sector + h + c.n h - 1) / c.S := Nat.div_le_div_right (by omega)
  have ha : c.addr h / 512 = c.sector + h := by unfold Conf.addr; omega
  unfold Conf.startBit Conf.endBit
  rw [first_eq, count_eq hh, last_eq hh, ha]
  generalize (c.sector + h) / c.S = f at *
  generalize (c.sector + h + c.n h - 1) / c.S = g at *
  generalize (c.sector + h) % c.S = r at *
  generalize (c.sector + h + c.n h - 1) % c.S = q at *
  generalize l * c.S + b = x at *
  have h3 : x < c.sector + h + c.n h ↔ x ≤ c.sector + h + c.n h - 1 := by omega
  rw [h3, h1, h2]
  constructor
  · rintro ⟨a1, a2, a3, a4⟩
    refine ⟨⟨a1, fun e => ?_⟩, by omega, fun e => ?_⟩
    · rw [if_pos (by omega)] at a3; exact a3
    · rw [if_pos (by omega)] at a4; exact a4
  · rintro ⟨⟨a1, a2⟩, a3, a4⟩
    refine ⟨a1, by omega, ?_, ?_⟩
    · by_cases e : l - f = 0
      · rw [if_pos e]; exact a2 (by omega)
      · rw [if_neg e]; omega
    · by_cases e : l - f = g - f + 1 - 1
      · rw [if_pos e]; exact a4 (by omega)
      · rw [if_neg e]; omega

/-! ### Purge -/

/-- The purge of a step clears exactly the bits of the sectors of that step in the lines that were mapped. -/
theorem purge_valid {c : Conf} {h l b : Nat} (hh : h < c.nr) (hb : b < c.S) (hit w : Nat → Bool) (k : Cache) :
    (c.purge h hit w k).valid l b = true ↔ k.valid l b = true ∧
      ¬ (hit (l - c.first h) = true ∧ c.sector + h ≤ l * c.S + b ∧
        l * c.S + b < c.sector + h + c.n h) := by
  have e := bits_exact (l := l) hh hb
  unfold Conf.purge
  simp only [Bool.and_eq_true, Bool.not_eq_true', Bool.and_eq_false_iff, decide_eq_true_eq,
    decide_eq_false_iff_not]
  grind

theorem purge_dirty {c : Conf} {h l b : Nat} (hh : h < c.nr) (hb : b < c.S) (hit w : Nat → Bool) (k : Cache) :
    (c.purge h hit w k).dirty l b = true ↔ k.dirty l b = true ∧
      ¬ (hit (l - c.first h) = true ∧ c.sector + h ≤ l * c.S + b ∧
        l * c.S + b < c.sector + h + c.n h) := by
  have e := bits_exact (l := l) hh hb
  unfold Conf.purge
  simp only [Bool.and_eq_true, Bool.not_eq_true', Bool.and_eq_false_iff, decide_eq_true_eq,
    decide_eq_false_iff_not]
  grind

theorem purge_wf {c : Conf} {h : Nat} {hit w : Nat → Bool} {k : Cache} (hk : Wf c k) :
    Wf c (c.purge h hit w k) := by
  intro l b hb hv
  have h1 : k.mapped l = true := by
    apply hk l b hb
    unfold Conf.purge at hv
    simp only [Bool.and_eq_true] at hv
    exact hv.1
  have h2 : (List.range c.S).any ((c.purge h hit w k).valid l) = true := by
    rw [List.any_eq_true]
    exact ⟨b, List.mem_range.2 hb, hv⟩
  unfold Conf.purge at h2 ⊢
  simp only at h2 ⊢
  rw [h1, h2]
  rfl

/-- A line that keeps a valid sector, and every line outside of the step, stays mapped. -/
theorem purge_mapped {c : Conf} {h l : Nat} (hit w : Nat → Bool) (k : Cache) (hm : k.mapped l = true)
    (hl : l < c.first h ∨ c.first h + c.count h ≤ l ∨
      ∃ b, b < c.S ∧ (c.purge h hit w k).valid l b = true) :
    (c.purge h hit w k).mapped l = true := by
  by_cases h2 : (List.range c.S).any ((c.purge h hit w k).valid l) = true
  · unfold Conf.purge at h2 ⊢
    simp only at h2 ⊢
    rw [hm, h2]
    rfl
  · rcases hl with hl | hl | ⟨b, hb, hv⟩
    · unfold Conf.purge
      have : ¬ c.first h ≤ l := by omega
      simp [hm, this]
    · unfold Conf.purge
      have : ¬ l < c.first h + c.count h := by omega
      simp [hm, this]
    · exact absurd (List.any_eq_true.2 ⟨b, List.mem_range.2 hb, hv⟩) h2

/-- No assertion of the bitmap functions fails (`/repo/src/metadata/metadata_bit.h:14-16`). -/
theorem bits_in_order {c : Conf} (hc : Ok c) {h i : Nat} (hh : h < c.nr) (hi : i < c.count h) :
    c.startBit h i ≤ c.endBit h i ∧ c.endBit h i < c.S := by
  have hS : 0 < c.S := by rcases hc.1 with h | h | h | h | h <;> omega
  have hn := n_pos hh
  have ha : c.addr h / 512 = c.sector + h := by unfold Conf.addr; omega
  have q1 := Nat.mod_lt (c.sector + h) hS
  have q2 := Nat.mod_lt (c.sector + h + c.n h - 1) hS
  have d1 := Nat.div_add_mod (c.sector + h) c.S
  have d2 := Nat.div_add_mod (c.sector + h + c.n h - 1) c.S
  have hm : (c.sector + h) / c.S ≤ (c.sector + h + c.n h - 1) / c.S := Nat.div_le_div_right (by omega)
  unfold Conf.startBit Conf.endBit
  rw [count_eq hh] at hi ⊢
  rw [last_eq hh, ha]
  generalize (c.sector + h) / c.S = f at *
  generalize (c.sector + h + c.n h - 1) / c.S = g at *
  generalize (c.sector + h) % c.S = r at *
  generalize (c.sector + h + c.n h - 1) % c.S = q at *
  by_cases e1 : i = 0
  · rw [if_pos e1]
    by_cases e2 : i = g - f + 1 - 1
    · rw [if_pos e2]
      have : f = g := by omega
      subst this
      omega
    · rw [if_neg e2]; omega
  · rw [if_neg e1]
    by_cases e2 : i = g - f + 1 - 1
    · rw [if_pos e2]; omega
    · rw [if_neg e2]; omega

/-- The map is large enough for every step: all steps start at the same place of a line as the first. -/
theorem map_large_enough {c : Conf} (hc : Ok c) (pooled : Bool) {k : Nat} (hk : k * 1024 < c.nr) :
    c.count (k * 1024) ≤ c.capacity pooled := by
  have hn := n_pos hk
  rw [count_eq hk]
  unfold Conf.capacity Conf.line maxTrim
  have e1 : c.sector * 512 / (512 * c.S) = c.sector / c.S := by rw [div_sec]; congr 1; omega
  have e2 : (c.sector * 512 + c.nr * 512 - 1) / (512 * c.S) = (c.sector + c.nr - 1) / c.S := by
    rw [div_sec]; congr 1; have := hc.2; omega
  have e3 : (c.sector * 512 + 512 * 1024 - 1) / (512 * c.S) = (c.sector + 1023) / c.S := by
    have : ∀ T, T = 512 * 1024 → (c.sector * 512 + T - 1) / 512 = c.sector + 1023 := by omega
    rw [div_sec, this _ rfl]
  simp only [e1, e2, e3]
  have hn2 : c.n (k * 1024) = min (c.nr - k * 1024) 1024 := rfl
  generalize c.n (k * 1024) = n at *
  obtain ⟨hS, hnr⟩ := hc
  clear e1 e2 e3
  generalize c.sector = a at *
  generalize c.nr = m at *
  by_cases hp : m ≤ 1024
  · have : k = 0 := by omega
    subst this
    have h512 : m * 512 ≤ 512 * 1024 := by omega
    rcases hS with h | h | h | h | h <;> rw [h] <;> cases pooled <;> simp [h512] <;> omega
  · have h512 : ¬ m * 512 ≤ 512 * 1024 := by omega
    rcases hS with h | h | h | h | h <;> rw [h] <;> cases pooled <;> simp [h512] <;> omega

/-! ### The protocol -/

/-- Invariant without the contents of the cache. -/
structure Inv (c : Conf) (s : St) : Prop where
  le : s.handled ≤ c.nr
  mult : s.handled = c.nr ∨ ∃ k, s.handled = k * 1024
  before : s.phase = .step ∨ s.phase = .wait ∨ s.phase = .work → s.handled < c.nr
  after : s.phase = .flushCache ∨ s.phase = .core → s.handled = c.nr
  rem : s.phase = .work → s.remaining = s.main.toNat + s.flush.toNat ∧ 0 < s.remaining
  quiet : s.phase ≠ .work → s.main = false ∧ s.flush = false ∧ s.locked = false
  once : s.completed = if s.phase = .done then 1 else 0
  refs : s.refs = (if s.phase = .done then 1 else 3) + s.main.toNat
  noCore : s.phase ≠ .done → s.cored = [] ∧ (s.failed = true → s.lockErr = true ∨ s.lost = true)
  okCore : s.phase = .done → s.reported = false →
    s.handled = c.nr ∧ s.cored = [(c.sector * 512, c.nr * 512)] ∧
      (s.failed = true → s.lockErr = true ∨ s.lost = true)
  blame : s.phase = .done → s.reported = true → s.failed = true
  lockFailed : s.lockErr = true ∨ s.lost = true → s.failed = true

theorem inv_init (c : Conf) (hc : Ok c) (k : Cache) : Inv c (init k) := by
  have := hc.2
  constructor
  case mult => exact .inr ⟨0, rfl⟩
  all_goals simp [init]
  exact this

/-- `_ocf_discard_finish_step` keeps the invariant. -/
theorem inv_finish {c : Conf} {s : St} (h1 : s.handled < c.nr) (h2 : ∃ k, s.handled = k * 1024)
    (h3 : s.main = false ∧ s.flush = false ∧ s.locked = false) (h4 : s.completed = 0) (h5 : s.refs = 3)
    (h6 : s.cored = []) (h7 : s.failed = true → s.lockErr = true ∨ s.lost = true)
    (h8 : s.lockErr = true ∨ s.lost = true → s.failed = true) :
    Inv c (c.finish s) := by
  have hn := n_pos h1
  have hb := bytes_div c s.handled
  have hn2 : c.n s.handled = min (c.nr - s.handled) 1024 := rfl
  obtain ⟨k, hk⟩ := h2
  have hp : (c.finish s).phase = .step ∧ s.handled + c.n s.handled < c.nr ∨
      ((c.finish s).phase = .core ∨ (c.finish s).phase = .flushCache) ∧
        s.handled + c.n s.handled = c.nr := by
    unfold Conf.finish
    rw [hb]
    simp only
    by_cases q : s.handled + c.n s.handled < c.nr
    · rw [if_pos q]; exact .inl ⟨rfl, q⟩
    · rw [if_neg q]
      refine .inr ⟨?_, by omega⟩
      cases c.vol <;> simp
  have hh : (c.finish s).handled = s.handled + c.n s.handled := by
    unfold Conf.finish; rw [hb]
  have f1 : (c.finish s).main = s.main := rfl
  have f2 : (c.finish s).flush = s.flush := rfl
  have f3 : (c.finish s).locked = s.locked := rfl
  have f4 : (c.finish s).completed = s.completed := rfl
  have f5 : (c.finish s).refs = s.refs := rfl
  have f6 : (c.finish s).cored = s.cored := rfl
  have f7 : (c.finish s).failed = s.failed := rfl
  have f8 : (c.finish s).lockErr = s.lockErr := rfl
  have f9 : (c.finish s).lost = s.lost := rfl
  generalize c.finish s = t at *
  have hnd : t.phase ≠ .done ∧ t.phase ≠ .work ∧ t.phase ≠ .wait := by
    rcases hp with ⟨h, _⟩ | ⟨h | h, _⟩ <;> simp [h]
  constructor
  case le => omega
  case mult =>
    by_cases q : s.handled + 1024 ≤ c.nr
    · exact .inr ⟨k + 1, by omega⟩
    · left; omega
  case before => grind
  case after => grind
  case rem => grind
  case quiet => grind
  case once => rw [if_neg hnd.1]; omega
  case refs => rw [if_neg hnd.1, f1, h3.1, f5, h5]; rfl
  case noCore => grind
  case okCore => grind
  case blame => grind
  case lockFailed => grind

theorem inv_begin {c : Conf} {s : St} (w : Nat → Bool) (f : Bool) (h : s.handled < c.nr)
    (h1 : ∃ k, s.handled = k * 1024) (h3 : s.main = false)
    (h4 : s.completed = 0) (h5 : s.refs = 3) (h6 : s.cored = [])
    (h7 : s.failed = true → s.lockErr = true ∨ s.lost = true)
    (h8 : s.lockErr = true ∨ s.lost = true → s.failed = true) : Inv c (c.begin s w f) := by
  unfold Conf.begin
  by_cases q : c.anyHit s.handled s.hit = true
  · rw [if_pos q]
    constructor <;> simp_all <;> first | omega | (cases f <;> simp)
  · rw [if_neg q]
    constructor <;> simp_all <;> omega

theorem inv_stepComplete {c : Conf} {s : St} {e : Bool} (hp : s.phase = .work) (h : s.handled < c.nr)
    (h1 : ∃ k, s.handled = k * 1024)
    (hr : s.remaining = s.main.toNat + s.flush.toNat + 1)
    (h4 : s.completed = 0) (h5 : s.refs = 3 + s.main.toNat) (h6 : s.cored = [])
    (h7 : s.failed = true → s.lockErr = true ∨ s.lost = true ∨ e = true ∧ s.main = false)
    (he : e = true → s.failed = true ∧ s.flush = false)
    (h8 : s.lockErr = true ∨ s.lost = true → s.failed = true) : Inv c (c.stepComplete s e) := by
  unfold Conf.stepComplete
  simp only
  by_cases q : s.remaining - 1 ≠ 0
  · rw [if_pos q]
    have hq : ¬ (s.main = false ∧ s.flush = false) := by
      rintro ⟨a, b⟩
      simp [a, b] at hr
      omega
    constructor <;> simp only
    case rem => intro _; omega
    case refs => rw [hp]; simpa using h5
    all_goals grind
  · rw [if_neg q]
    have hm : s.main = false ∧ s.flush = false := by
      cases a : s.main <;> cases b : s.flush <;> simp [a, b] at hr ⊢ <;> omega
    cases e
    · simp only [Bool.false_eq_true, if_false]
      apply inv_finish <;> simp_all
    · simp only [if_true, St.complete]
      constructor <;> simp only
      case refs => simp [hm.1, h5]
      all_goals grind

theorem stepComplete_refs (c : Conf) (s : St) (e : Bool) :
    (let t := c.stepComplete s e; { t with refs := t.refs - 1 }) =
      c.stepComplete { s with refs := s.refs - 1 } e := by
  unfold Conf.stepComplete
  simp only
  by_cases q : s.remaining - 1 ≠ 0
  · rw [if_pos q, if_pos q]
  · rw [if_neg q, if_neg q]
    cases e
    · rfl
    · simp [St.complete]
      omega

theorem inv_step {c : Conf} {env : Cache → Cache → Prop} {s t : St} (hi : Inv c s)
    (h : Step c env s t) : Inv c t := by
  have mul : s.handled < c.nr → ∃ k, s.handled = k * 1024 := fun hl => by
    rcases hi.mult with h | h
    · omega
    · exact h
  cases h with
  | env k hk =>
    obtain ⟨a, b, c, d, e, f, g, h, i, j, k, l⟩ := hi
    exact ⟨a, b, c, d, e, f, g, h, i, j, k, l⟩
  | lockOk w f hp =>
    have hl := hi.before (.inl hp)
    have hq := hi.quiet (by simp [hp])
    have ho := hi.once
    have hr := hi.refs
    have hn := hi.noCore (by simp [hp])
    rw [hp] at ho hr
    simp [hq.1] at ho hr
    exact inv_begin w f hl (mul hl) hq.1 ho hr hn.1 hn.2 hi.lockFailed
  | lockWait hp hh =>
    obtain ⟨a, b, c, d, e, f, g, h, i, j, k, l⟩ := hi
    constructor <;> simp only
    all_goals grind
  | lockErr hp hh =>
    have hl := hi.before (.inl hp)
    have hq := hi.quiet (by simp [hp])
    have ho := hi.once
    have hr := hi.refs
    have hn := hi.noCore (by simp [hp])
    rw [hp] at ho hr
    simp [hq.1] at ho hr
    exact inv_finish hl (mul hl) hq ho hr hn.1 (fun _ => .inl rfl) (fun _ => rfl)
  | resume w f hp =>
    have hl := hi.before (.inr (.inl hp))
    have hq := hi.quiet (by simp [hp])
    have ho := hi.once
    have hr := hi.refs
    have hn := hi.noCore (by simp [hp])
    rw [hp] at ho hr
    simp [hq.1] at ho hr
    exact inv_begin w f hl (mul hl) hq.1 ho hr hn.1 hn.2 hi.lockFailed
  | mainEnd hp hm =>
    have hl := hi.before (.inr (.inr hp))
    have ho := hi.once
    have hr := hi.refs
    have hn := hi.noCore (by simp [hp])
    have hrem := hi.rem hp
    rw [hp] at ho hr
    simp [hm] at ho hr hrem
    rw [stepComplete_refs]
    refine inv_stepComplete hp hl (mul hl) ?_ ho ?_ hn.1 (fun h => (hn.2 h).imp_right .inl) (by simp)
      hi.lockFailed
    · simp; omega
    · simp; omega
  | flushEnd err hp hf =>
    have hl := hi.before (.inr (.inr hp))
    have ho := hi.once
    have hr := hi.refs
    have hn := hi.noCore (by simp [hp])
    have hrem := hi.rem hp
    rw [hp] at ho hr
    simp [hf] at ho hr hrem
    refine inv_stepComplete hp hl (mul hl) ?_ ho ?_ hn.1 ?_ (by simp +contextual) ?_
    · simp; omega
    · simp; omega
    · have := hn.2
      simp only
      cases s.main <;> cases err <;> simp <;> grind
    · have := hi.lockFailed
      simp only
      grind
  | cacheFlushed err hp =>
    have hq := hi.quiet (by simp [hp])
    have ho := hi.once
    have hr := hi.refs
    have hn := hi.noCore (by simp [hp])
    rw [hp] at ho hr
    simp [hq.1] at ho hr
    obtain ⟨a, b, c, d, e, f, g, h, i, j, k, l⟩ := hi
    cases err
    · simp only [Bool.false_eq_true, if_false]
      constructor <;> simp only
      case refs => simp [hq.1, hr]
      all_goals grind
    · simp only [if_true, St.complete]
      constructor <;> simp only
      case refs => simp [hq.1, hr]
      all_goals grind
  | coreEnd err hp =>
    have hq := hi.quiet (by simp [hp])
    have ho := hi.once
    have hr := hi.refs
    have hn := hi.noCore (by simp [hp])
    have hh := hi.after (.inr hp)
    rw [hp] at ho hr
    simp [hq.1] at ho hr
    obtain ⟨a, b, c, d, e, f, g, h, i, j, k, l⟩ := hi
    simp only [St.complete]
    constructor <;> simp only
    case refs => simp [hq.1, hr]
    case okCore =>
      intro _ he
      subst he
      refine ⟨hh, by rw [hn.1], ?_⟩
      simpa using hn.2
    all_goals grind

/-- Reachable states of one discard. -/
abbrev Reachable (c : Conf) (env : Cache → Cache → Prop) (k : Cache) : St → Prop :=
  Reach (fun s => s = init k) (Step c env)

theorem inv_reach {c : Conf} (hc : Ok c) {env : Cache → Cache → Prop} {k : Cache} {s : St}
    (h : Reachable c env k s) : Inv c s := by
  refine Reach.inv (P := Inv c) ?_ ?_ s h
  · rintro s rfl
    exact inv_init c hc k
  · intro s t hs hst
    exact inv_step hs hst

/-! ### Theorems -/

/-- Completion is reported at most once, whatever the others do and whichever steps fail. -/
theorem completed_once {c : Conf} (hc : Ok c) {env : Cache → Cache → Prop} {k : Cache} {s : St}
    (h : Reachable c env k s) : s.completed ≤ 1 ∧ (s.completed = 1 ↔ s.phase = .done) := by
  rw [(inv_reach hc h).once]
  split <;> simp_all

/-- After completion nothing more happens to the request, no lock is held, and only the reference of the
I/O itself is left; before it, a reference is always held. -/
theorem references {c : Conf} (hc : Ok c) {env : Cache → Cache → Prop} {k : Cache} {s : St}
    (h : Reachable c env k s) :
    (s.phase = .done → s.refs = 1 ∧ s.locked = false ∧ s.main = false ∧ s.flush = false) ∧
    (s.phase ≠ .done → 3 ≤ s.refs) := by
  have hi := inv_reach hc h
  refine ⟨fun hd => ?_, fun hd => ?_⟩
  · have := hi.quiet (by simp [hd])
    have hr := hi.refs
    rw [hd, this.1] at hr
    exact ⟨hr, this.2.2, this.1, this.2.1⟩
  · have hr := hi.refs
    rw [if_neg hd] at hr
    omega

theorem after_done {c : Conf} (hc : Ok c) {env : Cache → Cache → Prop} {k : Cache} {s t : St}
    (h : Reachable c env k s) (hd : s.phase = .done) (hs : Step c env s t) :
    ∃ k', t = { s with cache := k' } := by
  cases hs with
  | env k' _ => exact ⟨k', rfl⟩
  | _ => simp_all

/-- Work left. -/
def measure (c : Conf) (s : St) : Nat :=
  (c.nr - s.handled) * 8 + match s.phase with
    | .step => 5 | .wait => 4 | .work => 1 + s.remaining | .flushCache => 2 | .core => 1 | .done => 0

theorem measure_finish {c : Conf} {s : St} (h : s.handled < c.nr) :
    measure c (c.finish s) < (c.nr - s.handled) * 8 := by
  have hn := n_pos h
  have hb := bytes_div c s.handled
  unfold measure Conf.finish
  rw [hb]
  simp only
  by_cases q : s.handled + c.n s.handled < c.nr
  · simp only [q, if_true]; omega
  · simp only [q, if_false]
    cases c.vol <;> simp <;> omega

theorem measure_begin {c : Conf} {s : St} (w : Nat → Bool) (f : Bool) :
    measure c (c.begin s w f) < (c.nr - s.handled) * 8 + 4 := by
  unfold Conf.begin
  by_cases q : c.anyHit s.handled s.hit = true
  · rw [if_pos q]
    cases f <;> simp [measure]
  · rw [if_neg q]
    simp [measure]

theorem measure_stepComplete {c : Conf} {s : St} (e : Bool) (hp : s.phase = .work)
    (h : s.handled < c.nr) (hr : 0 < s.remaining) :
    measure c (c.stepComplete s e) < measure c s := by
  have hm : measure c s = (c.nr - s.handled) * 8 + (1 + s.remaining) := by unfold measure; rw [hp]
  rw [hm]
  unfold Conf.stepComplete
  simp only
  by_cases q : s.remaining - 1 ≠ 0
  · rw [if_pos q]
    simp only [measure, hp]
    omega
  · rw [if_neg q]
    cases e
    · have := measure_finish (c := c) (s := { s with remaining := s.remaining - 1, locked := false }) h
      simp only [Bool.false_eq_true, if_false]
      simp only at this
      omega
    · simp [St.complete, measure]
      omega

/-- Every step of the request itself brings it nearer to completion. -/
theorem step_decreases {c : Conf} (hc : Ok c) {env : Cache → Cache → Prop} {k : Cache} {s t : St}
    (h : Reachable c env k s) (hs : Step c env s t) :
    (∃ k', env s.cache k' ∧ t = { s with cache := k' }) ∨ measure c t < measure c s := by
  have hi := inv_reach hc h
  cases hs with
  | env k' hk => exact .inl ⟨k', hk, rfl⟩
  | lockOk w f hp =>
    right
    refine Nat.lt_of_lt_of_le (measure_begin w f) ?_
    simp [measure, hp]
  | lockWait hp hh => right; simp [measure, hp]
  | lockErr hp hh =>
    right
    have := measure_finish (c := c) (s := { s with
        hit := fun i => s.cache.mapped (c.first s.handled + i), lockErr := true, failed := true })
        (hi.before (.inl hp))
    refine Nat.lt_of_lt_of_le this ?_
    simp [measure, hp]
  | resume w f hp =>
    right
    refine Nat.lt_of_lt_of_le (measure_begin w f) ?_
    simp [measure, hp]
  | mainEnd hp hm =>
    right
    have hr := hi.rem hp
    exact measure_stepComplete (s := { s with main := false }) false hp (hi.before (.inr (.inr hp))) hr.2
  | flushEnd err hp hf =>
    right
    have hr := hi.rem hp
    exact measure_stepComplete (s := { s with flush := false, lost := s.lost || (err && s.main), failed := s.failed || err }) err hp (hi.before (.inr (.inr hp))) hr.2
  | cacheFlushed err hp =>
    right
    cases err <;> simp [measure, hp, St.complete]
  | coreEnd err hp => right; simp [measure, hp, St.complete]

/-- Until completion some step of the request is possible. -/
theorem not_stuck {c : Conf} (hc : Ok c) {env : Cache → Cache → Prop} {k : Cache} {s : St}
    (h : Reachable c env k s) (hd : s.phase ≠ .done) :
    ∃ t, Step c env s t ∧ measure c t < measure c s := by
  have hi := inv_reach hc h
  have key : ∀ t, Step c env s t → (∀ k', t ≠ { s with cache := k' }) →
      ∃ t, Step c env s t ∧ measure c t < measure c s := fun t ht hne => by
    rcases step_decreases hc h ht with ⟨k', _, he⟩ | h
    · exact absurd he (hne k')
    · exact ⟨t, ht, h⟩
  cases hp : s.phase with
  | step =>
    refine key _ (.lockOk s (fun _ => false) false hp) fun k' he => ?_
    have := congrArg St.phase he
    unfold Conf.begin at this
    split at this <;> simp [hp] at this
  | wait =>
    refine key _ (.resume s (fun _ => false) false hp) fun k' he => ?_
    have := congrArg St.phase he
    unfold Conf.begin at this
    split at this <;> simp [hp] at this
  | work =>
    have hr := hi.rem hp
    cases hm : s.main with
    | true =>
      refine ⟨_, .mainEnd s hp hm, ?_⟩
      exact measure_stepComplete (s := { s with main := false }) false hp (hi.before (.inr (.inr hp))) hr.2
    | false =>
      have hf : s.flush = true := by
        cases hf : s.flush
        · rw [hm, hf] at hr; simp at hr; omega
        · rfl
      refine ⟨_, .flushEnd s false hp hf, ?_⟩
      exact measure_stepComplete (s := { s with flush := false, lost := s.lost || (false && s.main), failed := s.failed || false }) false hp (hi.before (.inr (.inr hp))) hr.2
  | flushCache => exact ⟨_, .cacheFlushed s false hp, by simp [measure, hp]⟩
  | core => exact ⟨_, .coreEnd s false hp, by simp [measure, hp, St.complete]⟩
  | done => exact absurd hp hd

/-- Success is reported only after the whole range was discarded on the core; and errors, except a lock
error and an error of a metadata flush that ended early, are reported. No error is invented. -/
theorem reports_errors_partial {c : Conf} (hc : Ok c) {env : Cache → Cache → Prop} {k : Cache} {s : St}
    (h : Reachable c env k s) (hd : s.phase = .done) :
    (s.reported = false → s.cored = [(c.sector * 512, c.nr * 512)]) ∧
    (s.failed = true → s.lockErr = false → s.lost = false → s.reported = true) ∧
    (s.reported = true → s.failed = true) := by
  have hi := inv_reach hc h
  refine ⟨fun hr => (hi.okCore hd hr).2.1, fun hf h1 h2 => ?_, hi.blame hd⟩
  cases hr : s.reported
  · have := (hi.okCore hd hr).2.2 hf
    simp [h1, h2] at this
  · rfl

/-- Every step fits in the map of the request. -/
theorem step_fits {c : Conf} (hc : Ok c) {env : Cache → Cache → Prop} {k : Cache} {s : St}
    (h : Reachable c env k s) (hp : s.phase = .step) (pooled : Bool) :
    c.count s.handled ≤ c.capacity pooled := by
  have hi := inv_reach hc h
  have hl := hi.before (.inl hp)
  rcases hi.mult with hm | ⟨j, hj⟩
  · omega
  · rw [hj] at hl ⊢
    exact map_large_enough hc pooled hl

/-- Invariant about the contents of the cache. -/
structure Drop (c : Conf) (s : St) : Prop where
  wf : Wf c s.cache
  gone : s.lockErr = false → ∀ x, c.sector ≤ x → x < c.sector + s.handled → ¬ Cached c s.cache x
  here : s.phase = .work → ∀ x, c.sector + s.handled ≤ x → x < c.sector + s.handled + c.n s.handled →
    ¬ Cached c s.cache x
  miss : s.phase = .wait → ∀ x, c.sector + s.handled ≤ x → x < c.sector + s.handled + c.n s.handled →
    s.hit (x / c.S - c.first s.handled) = false → ¬ Cached c s.cache x

theorem S_pos {c : Conf} (hc : Ok c) : 0 < c.S := by rcases hc.1 with h | h | h | h | h <;> omega

theorem cached_purge {c : Conf} (hc : Ok c) {h : Nat} (hh : h < c.nr) (hit w : Nat → Bool) (k : Cache)
    (x : Nat) : Cached c (c.purge h hit w k) x ↔ Cached c k x ∧
      ¬ (hit (x / c.S - c.first h) = true ∧ c.sector + h ≤ x ∧ x < c.sector + h + c.n h) := by
  unfold Cached
  rw [purge_valid hh (Nat.mod_lt _ (S_pos hc))]
  rw [show x / c.S * c.S + x % c.S = x by rw [Nat.mul_comm]; exact Nat.div_add_mod x c.S]

theorem drop_begin {c : Conf} (hc : Ok c) {s : St} (w : Nat → Bool) (f : Bool) (hh : s.handled < c.nr)
    (hw : Wf c s.cache)
    (h1 : s.lockErr = false → ∀ x, c.sector ≤ x → x < c.sector + s.handled → ¬ Cached c s.cache x)
    (h2 : ∀ x, c.sector + s.handled ≤ x → x < c.sector + s.handled + c.n s.handled →
      s.hit (x / c.S - c.first s.handled) = false → ¬ Cached c s.cache x) :
    Drop c (c.begin s w f) := by
  have hn := n_pos hh
  unfold Conf.begin
  by_cases q : c.anyHit s.handled s.hit = true
  · rw [if_pos q]
    refine ⟨purge_wf hw, ?_, ?_, by simp⟩
    · intro hl x hx1 hx2 hc'
      exact h1 hl x hx1 hx2 ((cached_purge hc hh _ _ _ _).1 hc').1
    · intro _ x hx1 hx2 hc'
      have := (cached_purge hc hh _ _ _ _).1 hc'
      cases hb : s.hit (x / c.S - c.first s.handled)
      · exact h2 x hx1 hx2 hb this.1
      · exact this.2 ⟨hb, hx1, hx2⟩
  · rw [if_neg q]
    refine ⟨hw, h1, ?_, by simp⟩
    intro _ x hx1 hx2
    apply h2 x hx1 hx2
    have hlt : x / c.S - c.first s.handled < c.count s.handled := by
      have hb := (bits_exact (c := c) (h := s.handled) (l := x / c.S) (b := x % c.S) hh
        (Nat.mod_lt _ (S_pos hc))).2
        (by rw [show x / c.S * c.S + x % c.S = x by rw [Nat.mul_comm]; exact Nat.div_add_mod x c.S]
            exact ⟨hx1, hx2⟩)
      omega
    cases hb : s.hit (x / c.S - c.first s.handled)
    · rfl
    · exact absurd (List.any_eq_true.2 ⟨_, List.mem_range.2 hlt, hb⟩) q

theorem drop_finish {c : Conf} {s : St} (hw : Wf c s.cache)
    (h1 : s.lockErr = false → ∀ x, c.sector ≤ x → x < c.sector + s.handled + c.n s.handled →
      ¬ Cached c s.cache x) : Drop c (c.finish s) := by
  have hb := bytes_div c s.handled
  have hp : (c.finish s).phase ≠ .work ∧ (c.finish s).phase ≠ .wait := by
    unfold Conf.finish
    simp only
    split
    · simp
    · cases c.vol <;> simp
  refine ⟨hw, ?_, fun h => absurd h hp.1, fun h => absurd h hp.2⟩
  unfold Conf.finish
  simp only
  rw [hb]
  intro hl x hx1 hx2
  exact h1 hl x hx1 (by omega)

theorem drop_stepComplete {c : Conf} {s : St} (e : Bool) (hp : s.phase = .work) (hd : Drop c s) :
    Drop c (c.stepComplete s e) := by
  unfold Conf.stepComplete
  simp only
  by_cases q : s.remaining - 1 ≠ 0
  · rw [if_pos q]
    obtain ⟨a, b, c, d⟩ := hd
    exact ⟨a, b, c, d⟩
  · rw [if_neg q]
    cases e
    · simp only [Bool.false_eq_true, if_false]
      apply drop_finish
      · exact hd.wf
      · intro hl x hx1 hx2
        rcases Nat.lt_or_ge x (c.sector + s.handled) with h | h
        · exact hd.gone hl x hx1 h
        · exact hd.here hp x h hx2
    · obtain ⟨a, b, c, d⟩ := hd
      exact ⟨a, b, by simp [St.complete], by simp [St.complete]⟩

theorem drop_step {c : Conf} (hc : Ok c) {s t : St} (hi : Inv c s) (hd : Drop c s)
    (h : Step c (Quiet c) s t) : Drop c t := by
  have mapped : ∀ x, s.cache.mapped (c.first s.handled + (x / c.S - c.first s.handled)) = false →
      c.sector + s.handled ≤ x → ¬ Cached c s.cache x := by
    intro x hm hx hcx
    have hf : c.first s.handled ≤ x / c.S := by rw [first_eq]; exact Nat.div_le_div_right hx
    have e : c.first s.handled + (x / c.S - c.first s.handled) = x / c.S := by omega
    rw [e, hd.wf _ _ (Nat.mod_lt _ (S_pos hc)) hcx] at hm
    cases hm
  cases h with
  | env k' hk =>
    have hle := hi.le
    refine ⟨hk.1 hd.wf, ?_, ?_, ?_⟩
    · intro hl x hx1 hx2 hcx
      exact hd.gone hl x hx1 hx2 (hk.2 x ⟨hx1, by simp only at hx2; omega⟩ hcx)
    · intro hp x hx1 hx2 hcx
      have hn := n_pos (hi.before (.inr (.inr hp)))
      exact hd.here hp x hx1 hx2 (hk.2 x ⟨by simp only at hx1; omega, by simp only at hx2; omega⟩ hcx)
    · intro hp x hx1 hx2 hh hcx
      have hn := n_pos (hi.before (.inr (.inl hp)))
      exact hd.miss hp x hx1 hx2 hh (hk.2 x ⟨by simp only at hx1; omega, by simp only at hx2; omega⟩ hcx)
  | lockOk w f hp =>
    exact drop_begin hc w f (hi.before (.inl hp)) hd.wf hd.gone fun x hx1 _ hh => mapped x hh hx1
  | lockWait hp hh =>
    exact ⟨hd.wf, hd.gone, by simp, fun _ x hx1 _ hm => mapped x hm hx1⟩
  | lockErr hp hh => exact drop_finish hd.wf (by simp)
  | resume w f hp =>
    exact drop_begin hc w f (hi.before (.inr (.inl hp))) hd.wf hd.gone (hd.miss hp)
  | mainEnd hp hm =>
    rw [stepComplete_refs]
    refine drop_stepComplete _ hp ?_
    obtain ⟨a, b, c, d⟩ := hd
    exact ⟨a, b, c, d⟩
  | flushEnd err hp hf =>
    refine drop_stepComplete _ hp ?_
    obtain ⟨a, b, c, d⟩ := hd
    exact ⟨a, b, c, d⟩
  | cacheFlushed err hp =>
    cases err
    · exact ⟨hd.wf, hd.gone, by simp, by simp⟩
    · exact ⟨hd.wf, hd.gone, by simp [St.complete], by simp [St.complete]⟩
  | coreEnd err hp => exact ⟨hd.wf, hd.gone, by simp [St.complete], by simp [St.complete]⟩

/-- A discard that reports success leaves no cached copy of any sector of the range, if no lock failed for
lack of memory and no other request used the range meanwhile. -/
theorem drops_all_partial {c : Conf} (hc : Ok c) {k : Cache} (hk : Wf c k) {s : St}
    (h : Reachable c (Quiet c) k s) (hd : s.phase = .done) (hr : s.reported = false)
    (hl : s.lockErr = false) (x : Nat) (hx : InRange c x) : ¬ Cached c s.cache x := by
  have : Inv c s ∧ Drop c s := by
    refine Reach.inv (P := fun s => Inv c s ∧ Drop c s) ?_ ?_ s h
    · rintro s rfl
      exact ⟨inv_init c hc k, hk, by simp [init]; omega, by simp [init], by simp [init]⟩
    · intro s t hs hst
      exact ⟨inv_step hs.1 hst, drop_step hc hs.1 hs.2 hst⟩
  have hh := (this.1.okCore hd hr).1
  exact this.2.gone hl x hx.1 (by rw [hh]; exact hx.2)

/-- A discard alone changes nothing outside of its range: valid and dirty bits of all other sectors stay. -/
theorem keeps_others {c : Conf} (hc : Ok c) {k : Cache} {s : St}
    (h : Reachable c (fun a b => a = b) k s) {l b : Nat} (hb : b < c.S) (hx : ¬ InRange c (l * c.S + b)) :
    s.cache.valid l b = k.valid l b ∧ s.cache.dirty l b = k.dirty l b := by
  have beg : ∀ (s : St) (w : Nat → Bool) (f : Bool), s.handled < c.nr →
      (c.begin s w f).cache.valid l b = s.cache.valid l b ∧
      (c.begin s w f).cache.dirty l b = s.cache.dirty l b := by
    intro s w f hh
    have hn := n_pos hh
    unfold Conf.begin
    split
    · have h1 := purge_valid (l := l) hh hb s.hit w s.cache
      have h2 := purge_dirty (l := l) hh hb s.hit w s.cache
      have h3 : ¬ (s.hit (l - c.first s.handled) = true ∧ c.sector + s.handled ≤ l * c.S + b ∧
          l * c.S + b < c.sector + s.handled + c.n s.handled) := by
        rintro ⟨_, q1, q2⟩
        exact hx ⟨by omega, by omega⟩
      simp only
      constructor
      · rw [Bool.eq_iff_iff, h1]; exact ⟨fun h => h.1, fun h => ⟨h, h3⟩⟩
      · rw [Bool.eq_iff_iff, h2]; exact ⟨fun h => h.1, fun h => ⟨h, h3⟩⟩
    · exact ⟨rfl, rfl⟩
  have fin : ∀ s e, (c.stepComplete s e).cache = s.cache := by
    intro s e
    unfold Conf.stepComplete Conf.finish St.complete
    simp only
    split
    · rfl
    · cases e <;> rfl
  have : Inv c s ∧ s.cache.valid l b = k.valid l b ∧ s.cache.dirty l b = k.dirty l b := by
    refine Reach.inv (P := fun s => Inv c s ∧ s.cache.valid l b = k.valid l b ∧
      s.cache.dirty l b = k.dirty l b) ?_ ?_ s h
    · rintro s rfl
      exact ⟨inv_init c hc k, rfl, rfl⟩
    · intro s t ⟨hi, hs⟩ hst
      refine ⟨inv_step hi hst, ?_⟩
      cases hst with
      | env k' hk => rw [← hk]; exact hs
      | lockOk w f hp => 
        refine ⟨(beg _ w f ?_).1.trans hs.1, (beg _ w f ?_).2.trans hs.2⟩ <;> exact hi.before (.inl hp)
      | lockWait hp hh => exact hs
      | lockErr hp hh => exact hs
      | resume w f hp =>
        refine ⟨(beg _ w f ?_).1.trans hs.1, (beg _ w f ?_).2.trans hs.2⟩ <;>
          exact hi.before (.inr (.inl hp))
      | mainEnd hp hm => simp only [fin]; exact hs
      | flushEnd err hp hf => simp only [fin]; exact hs
      | cacheFlushed err hp => cases err <;> exact hs
      | coreEnd err hp => exact hs
  exact this.2

/-! ### What goes wrong -/

/-- One line of eight sectors, all cached and dirty; the others empty. -/
def full : Cache := ⟨fun l => l == 0, fun l _ => l == 0, fun l _ => l == 0⟩

/-- A discard of 8 sectors. -/
def small : Conf := ⟨8, 0, 8, false⟩

/-- If the lock fails for lack of memory, success is reported although the cached copy is still there. -/
theorem lock_error_ignored : ∃ (c : Conf) (k : Cache) (s : St) (x : Nat), Ok c ∧ Wf c k ∧
    Reachable c (Quiet c) k s ∧ s.phase = .done ∧ s.reported = false ∧ s.lockErr = true ∧
    InRange c x ∧ Cached c s.cache x := by
  have h0 : Reachable small (Quiet small) full (init full) := .init rfl
  have h1 := Reach.step h0 (.lockErr _ (by decide) (by decide))
  have h2 := Reach.step h1 (.cacheFlushed _ false (by decide))
  have h3 := Reach.step h2 (.coreEnd _ false (by decide))
  refine ⟨small, full, _, 3, by simp [Ok, small], ?_, h3, by decide, by decide, by decide, by simp [InRange, small], by unfold Cached; decide⟩
  intro l b _ h
  exact h

/-- If the metadata flush fails before `_ocf_discard_step_do` is done, success is reported although the
removal of dirty lines was not recorded on the cache device. -/
theorem flush_error_ignored : ∃ (c : Conf) (k : Cache) (s : St), Ok c ∧ Wf c k ∧
    Reachable c (Quiet c) k s ∧ s.phase = .done ∧ s.reported = false ∧ s.failed = true ∧
    s.lockErr = false := by
  have h0 : Reachable small (Quiet small) full (init full) := .init rfl
  have h1 := Reach.step h0 (.lockOk _ (fun _ => false) true (by decide))
  have h2 := Reach.step h1 (.flushEnd _ true (by decide) (by decide))
  have h3 := Reach.step h2 (.mainEnd _ (by decide) (by decide))
  have h4 := Reach.step h3 (.cacheFlushed _ false (by decide))
  have h5 := Reach.step h4 (.coreEnd _ false (by decide))
  refine ⟨small, full, _, by simp [Ok, small], ?_, h5, by decide, by decide, by decide, by decide⟩
  intro l b _ h
  exact h

/-- A read between the purge and the discard of the core brings back a cached copy, which then survives the
discard. -/
theorem recached : ∃ (c : Conf) (k : Cache) (s : St) (x : Nat), Ok c ∧ Wf c k ∧
    Reachable c Anything k s ∧ s.phase = .done ∧ s.reported = false ∧ s.failed = false ∧
    InRange c x ∧ Cached c s.cache x := by
  have h0 : Reachable small Anything full (init full) := .init rfl
  have h1 := Reach.step h0 (.lockOk _ (fun _ => false) false (by decide))
  have h2 := Reach.step h1 (.mainEnd _ (by decide) (by decide))
  have h3 := Reach.step h2 (.env _ full trivial)
  have h4 := Reach.step h3 (.cacheFlushed _ false (by decide))
  have h5 := Reach.step h4 (.coreEnd _ false (by decide))
  refine ⟨small, full, _, 3, by simp [Ok, small], ?_, h5, by decide, by decide, by decide, by simp [InRange, small], by unfold Cached; decide⟩
  intro l b _ h
  exact h

/-- When the map cannot be allocated the request is refused with a reference too many: it is never freed
and keeps its reference to the metadata. -/
theorem refused_keeps_reference : submit false false true = .refused 2 ∧
    (∀ d2c noMem, submit true d2c noMem = .refused 1) := by
  exact ⟨rfl, fun _ _ => rfl⟩

/-! ### Zeroing -/

/-- Zeroing a line completes once if the request did not want a metadata flush before; the mark of the
engine itself does not ask for one. -/
theorem zero_once_partial (err : Bool) : zeroEnds false err = [false] := rfl

/-- With a metadata flush it completes twice, and an error of the flush is followed by a success. -/
theorem zero_twice (err : Bool) : zeroEnds true err = [err, false] := rfl

/-! ### Concrete runs -/

/-- A range of 1100 sectors from sector 5, lines of 8 sectors: two steps; the first is mapped, waits for its
locks and flushes metadata. -/
def big : Conf := ⟨8, 5, 1100, true⟩

example : ∃ s, Reachable big (Quiet big) full s ∧ s.phase = .done ∧ s.reported = false ∧
    s.lockErr = false ∧ s.cored = [(5 * 512, 1100 * 512)] ∧ s.cache.valid 0 4 = true ∧
    s.cache.valid 0 5 = false := by
  have h0 : Reachable big (Quiet big) full (init full) := .init rfl
  have h1 := Reach.step h0 (.lockWait _ rfl (by decide))
  have h2 := Reach.step h1 (.resume _ (fun _ => false) true rfl)
  have h3 := Reach.step h2 (.mainEnd _ (by decide) (by decide))
  have h4 := Reach.step h3 (.flushEnd _ false (by decide) (by decide))
  have h5 := Reach.step h4 (.lockOk _ (fun _ => false) true (by decide))
  have h6 := Reach.step h5 (.mainEnd _ (by decide) (by decide))
  have h7 := Reach.step h6 (.coreEnd _ false (by decide))
  exact ⟨_, h7, by decide, by decide, by decide, by decide, by decide, by decide⟩

example : big.count 0 = 129 ∧ big.capacity false = 129 ∧ big.capacity true = 139 ∧
    big.count 1024 = 11 ∧ big.startBit 0 0 = 5 ∧ big.endBit 0 128 = 4 := by decide

end Verif.Discard
