import Verif.Model.FlushMngt
import Verif.Lemma.Common
import Mathlib.Data.List.Nodup
import Mathlib.Tactic.ByContra
import Mathlib.Data.List.Perm.Subperm

/-! Helper lemmas for `Verif.Props.FlushMngt`. -/

namespace Verif.FlushMngt

/-- The cores the operation flushes. -/
def Wanted (cfg : Cfg) (c : Nat) : Prop :=
  match cfg.op with
  | .core d => c = d
  | .all => c ∈ cfg.cores

structure Good (cfg : Cfg) (m : Mem) : Prop where
  uniq : ∀ i j o, i < cfg.entries → j < cfg.entries → (m.lines i).owner = some o →
    (m.lines j).owner = some o → i = j
  incores : ∀ i c k, i < cfg.entries → (m.lines i).owner = some (c, k) → c ∈ cfg.cores
  dirtyData : ∀ i c k t, i < cfg.entries → t < cfg.sectors → (m.lines i).owner = some (c, k) →
    (m.lines i).dirty t = true → (m.lines i).data t = m.latest c k t
  cleanData : ∀ c k t, t < cfg.sectors →
    (∀ i, i < cfg.entries → (m.lines i).owner = some (c, k) → (m.lines i).dirty t = false) →
    m.core c k t = m.latest c k t

theorem anyDirty_iff {w : Nat} {l : Line} :
    anyDirty w l = true ↔ ∃ t, t < w ∧ l.dirty t = true := by
  simp [anyDirty, List.any_eq_true]

theorem anyDirty_false {w : Nat} {l : Line} :
    anyDirty w l = false ↔ ∀ t, t < w → l.dirty t = false := by
  rw [← Bool.not_eq_true, anyDirty_iff]
  constructor
  · intro h t ht
    cases hd : l.dirty t
    · rfl
    · exact absurd ⟨t, ht, hd⟩ h
  · rintro h ⟨t, ht, hd⟩
    rw [h t ht] at hd; cases hd

theorem isDirty_iff {cfg : Cfg} {m : Mem} {c i : Nat} :
    isDirty cfg m c i = true ↔
      ∃ k, (m.lines i).owner = some (c, k) ∧ ∃ t, t < cfg.sectors ∧ (m.lines i).dirty t = true := by
  unfold isDirty
  cases ho : (m.lines i).owner with
  | none => simp
  | some o =>
    obtain ⟨d, k⟩ := o
    simp only [Bool.and_eq_true, decide_eq_true_eq, anyDirty_iff]
    constructor
    · rintro ⟨rfl, h⟩; exact ⟨k, rfl, h⟩
    · rintro ⟨k', h1, h2⟩; cases h1; exact ⟨rfl, h2⟩

/-- No line becomes dirty. -/
def Shr (cfg : Cfg) (m m' : Mem) : Prop :=
  ∀ c i, i < cfg.entries → isDirty cfg m' c i = true → isDirty cfg m c i = true

theorem shr_of {cfg : Cfg} {m m' : Mem}
    (h : ∀ i c k t, i < cfg.entries → t < cfg.sectors → (m'.lines i).owner = some (c, k) →
      (m'.lines i).dirty t = true → (m.lines i).owner = some (c, k) ∧ (m.lines i).dirty t = true) :
    Shr cfg m m' := by
  intro c i hi hd
  obtain ⟨k, ho, t, ht, hd⟩ := isDirty_iff.1 hd
  obtain ⟨h1, h2⟩ := h i c k t hi ht ho hd
  exact isDirty_iff.2 ⟨k, h1, t, ht, h2⟩

theorem upd_same {α : Type} (f : Nat → α) (i : Nat) (v : α) : upd f i v i = v := by simp [upd]

theorem upd_ne {α : Type} {f : Nat → α} {i k : Nat} {v : α} (h : k ≠ i) : upd f i v k = f k := by
  simp [upd, h]

theorem memStep_shr {cfg : Cfg} {m m' : Mem} (h : MemStep cfg m m') : Shr cfg m m' := by
  apply shr_of
  intro i' c' k' t' hi' ht' ho hd
  cases h with
  | clean i c k t hi ht hown hdt =>
    by_cases e : i' = i
    · subst e; simp only [upd, if_true] at *; grind
    · simp only [upd, if_neg e] at *; exact ⟨ho, hd⟩
  | writeHit i c k t v v' hi ht hown =>
    by_cases e : i' = i
    · subst e; simp only [upd, if_true] at *; grind
    · simp only [upd, if_neg e] at *; exact ⟨ho, hd⟩
  | writeMiss c k t v hn => exact ⟨ho, hd⟩
  | remap i l hi hcl hl hown =>
    simp only [Mem.setLine, upd] at *
    by_cases e : i' = i
    · subst e; simp only [if_true, upd] at *
      rw [hl t' ht'] at hd; cases hd
    · simp only [if_neg e] at *; exact ⟨ho, hd⟩
  | fill i t v hi hdt => simp only [Mem.setLine] at *; grind [upd]

theorem memStep_good {cfg : Cfg} {m m' : Mem} (g : Good cfg m) (h : MemStep cfg m m') :
    Good cfg m' := by
  obtain ⟨g1, g2, g3, g4⟩ := g
  cases h with
  | clean i c k t hi ht hown hdt =>
    have hdat := g3 i c k t hi ht hown hdt
    constructor <;> simp only [upd, upd3]
    · grind
    · grind
    · intro i' c' k' t' hi' ht' ho hd
      by_cases e : i' = i
      · subst e; simp only [if_true, upd] at *; grind
      · simp only [if_neg e] at *; exact g3 i' c' k' t' hi' ht' ho hd
    · intro c' k' t' ht' hall
      by_cases e : c' = c ∧ k' = k ∧ t' = t
      · obtain ⟨rfl, rfl, rfl⟩ := e
        rw [if_pos ⟨rfl, rfl, rfl⟩, hdat]
      · rw [if_neg e]
        apply g4 c' k' t' ht'
        intro i' hi' ho'
        have := hall i' hi'
        by_cases e' : i' = i
        · subst e'; simp only [if_true, upd] at this
          have := this ho'
          grind
        · simp only [if_neg e'] at this; exact this ho'
  | writeHit i c k t v v' hi ht hown =>
    constructor <;> simp only [upd, upd3]
    · grind
    · grind
    · intro i' c' k' t' hi' ht' ho hd
      by_cases e : i' = i
      · subst e; simp only [if_true, upd] at *
        have : (c', k') = (c, k) := by rw [hown] at ho; cases ho; rfl
        cases this
        by_cases et : t' = t
        · subst et; simp at hd
        · simp only [if_neg et] at *
          rw [if_neg (by simp [et])]
          exact g3 i' c k t' hi' ht' hown hd
      · simp only [if_neg e] at *
        have : ¬ (c' = c ∧ k' = k ∧ t' = t) := by
          rintro ⟨rfl, rfl, rfl⟩
          exact e (g1 i' i _ hi' hi ho hown)
        rw [if_neg this]
        exact g3 i' c' k' t' hi' ht' ho hd
    · intro c' k' t' ht' hall
      by_cases e : c' = c ∧ k' = k ∧ t' = t
      · rw [if_pos e, if_pos e]
      · rw [if_neg e, if_neg e]
        apply g4 c' k' t' ht'
        intro i' hi' ho'
        have := hall i' hi'
        by_cases e' : i' = i
        · subst e'; simp only [if_true, upd] at this
          have := this ho'
          grind
        · simp only [if_neg e'] at this; exact this ho'
  | writeMiss c k t v hn =>
    refine ⟨g1, g2, ?_, ?_⟩ <;> simp only [upd3]
    · intro i' c' k' t' hi' ht' ho hd
      have : ¬ (c' = c ∧ k' = k ∧ t' = t) := by
        rintro ⟨rfl, rfl, rfl⟩; exact hn i' hi' ho
      rw [if_neg this]; exact g3 i' c' k' t' hi' ht' ho hd
    · intro c' k' t' ht' hall
      by_cases e : c' = c ∧ k' = k ∧ t' = t
      · rw [if_pos e, if_pos e]
      · rw [if_neg e, if_neg e]; exact g4 c' k' t' ht' hall
  | remap i l hi hcl hl hown =>
    rw [anyDirty_false] at hcl
    constructor <;> simp only [Mem.setLine, upd]
    · intro a b o ha hb hoa hob
      by_cases e : a = i <;> by_cases e' : b = i <;>
        simp only [e, e', if_true, if_false] at hoa hob ⊢
      · exact absurd hob ((hown o hoa).2 b hb e')
      · exact absurd hoa ((hown o hob).2 a ha e)
      · exact g1 a b o ha hb hoa hob
    · intro a c k ha hoa
      by_cases e : a = i <;> simp only [e, if_true, if_false] at *
      · exact (hown _ hoa).1
      · exact g2 a c k ha hoa
    · intro a c k t ha ht hoa hd
      by_cases e : a = i <;> simp only [e, if_true, if_false] at *
      · rw [hl t ht] at hd; cases hd
      · exact g3 a c k t ha ht hoa hd
    · intro c k t ht hall
      apply g4 c k t ht
      intro a ha hoa
      have := hall a ha
      by_cases e : a = i
      · subst e; exact hcl t ht
      · simp only [if_neg e] at this; exact this hoa
  | fill i t v hi hdt =>
    constructor <;> simp only [Mem.setLine, upd]
    · grind
    · grind
    · intro i' c' k' t' hi' ht' ho hd
      by_cases e : i' = i
      · subst e; simp only [if_true, upd] at *
        have : t' ≠ t := by rintro rfl; rw [hdt] at hd; cases hd
        simp only [if_neg this]
        exact g3 i' c' k' t' hi' ht' ho hd
      · simp only [if_neg e] at *; exact g3 i' c' k' t' hi' ht' ho hd
    · intro c' k' t' ht' hall
      apply g4 c' k' t' ht'
      intro i' hi' ho'
      have := hall i' hi'
      by_cases e' : i' = i
      · subst e'; simp only [if_true, upd] at this; exact this ho'
      · simp only [if_neg e'] at this; exact this ho'

theorem dirty_good {cfg : Cfg} {m : Mem} (g : Good cfg m) {i c k t : Nat} {v : Int}
    (hi : i < cfg.entries) (ht : t < cfg.sectors) (hown : (m.lines i).owner = some (c, k)) :
    Good cfg { m with
          lines := upd m.lines i
            { m.lines i with dirty := upd (m.lines i).dirty t true
                             data := upd (m.lines i).data t v }
          latest := upd3 m.latest c k t v } := by
  obtain ⟨g1, g2, g3, g4⟩ := g
  constructor <;> simp only [upd, upd3]
  · grind
  · grind
  · intro i' c' k' t' hi' ht' ho hd
    by_cases e : i' = i
    · subst e; simp only [if_true, upd] at *
      have : (c', k') = (c, k) := by rw [hown] at ho; cases ho; rfl
      cases this
      by_cases et : t' = t
      · subst et; simp
      · simp only [if_neg et] at *
        rw [if_neg (by simp [et])]
        exact g3 i' c k t' hi' ht' hown hd
    · simp only [if_neg e] at *
      have : ¬ (c' = c ∧ k' = k ∧ t' = t) := by
        rintro ⟨rfl, rfl, rfl⟩
        exact e (g1 i' i _ hi' hi ho hown)
      rw [if_neg this]
      exact g3 i' c' k' t' hi' ht' ho hd
  · intro c' k' t' ht' hall
    by_cases e : c' = c ∧ k' = k ∧ t' = t
    · obtain ⟨rfl, rfl, rfl⟩ := e
      have := hall i hi
      simp only [if_true, upd] at this
      exact absurd (this hown) (by simp)
    · rw [if_neg e]
      apply g4 c' k' t' ht'
      intro i' hi' ho'
      have := hall i' hi'
      by_cases e' : i' = i
      · subst e'; simp only [if_true, upd] at this
        have h2 := this ho'
        by_cases et : t' = t
        · subst et; simp at h2
        · simpa [et] using h2
      · simp only [if_neg e'] at this; exact this ho'

/-! ### Counting -/

theorem dirtyCount_zero {cfg : Cfg} {m : Mem} {c : Nat} :
    dirtyCount cfg m c = 0 ↔ ∀ i, i < cfg.entries → isDirty cfg m c i = false := by
  unfold dirtyCount
  rw [List.countP_eq_zero]
  constructor
  · intro h i hi
    have := h i (List.mem_range.2 hi)
    simpa using this
  · intro h i hi
    simp [h i (List.mem_range.1 hi)]

theorem dirtyCount_mono {cfg : Cfg} {m m' : Mem} (h : Shr cfg m m') (c : Nat) :
    dirtyCount cfg m' c ≤ dirtyCount cfg m c := by
  unfold dirtyCount
  apply List.countP_mono_left
  intro i hi hd
  exact h c i (List.mem_range.1 hi) hd

theorem count_le_length {n : Nat} {p : Nat → Bool} {l : List Nat}
    (h : ∀ i, i < n → p i = true → i ∈ l) : (List.range n).countP p ≤ l.length := by
  rw [List.countP_eq_length_filter]
  refine (List.Nodup.subperm (List.Nodup.filter _ List.nodup_range) ?_).length_le
  intro i hi
  rw [List.mem_filter, List.mem_range] at hi
  exact h i hi.1 hi.2

/-- Number of dirty lines of core `c` from `line` on. -/
def rest (cfg : Cfg) (m : Mem) (c line : Nat) : Nat :=
  (List.range' line (cfg.entries - line)).countP (isDirty cfg m c)

theorem rest_zero (cfg : Cfg) (m : Mem) (c : Nat) : rest cfg m c 0 = dirtyCount cfg m c := by
  simp [rest, dirtyCount, List.range_eq_range']

theorem rest_succ {cfg : Cfg} {m : Mem} {c line : Nat} (h : line < cfg.entries) :
    rest cfg m c line = rest cfg m c (line + 1) + (if isDirty cfg m c line = true then 1 else 0) := by
  unfold rest
  have : cfg.entries - line = (cfg.entries - (line + 1)) + 1 := by omega
  rw [this, List.range'_succ, List.countP_cons]

theorem rest_mono {cfg : Cfg} {m m' : Mem} (h : Shr cfg m m') (c line : Nat) :
    rest cfg m' c line ≤ rest cfg m c line := by
  unfold rest
  apply List.countP_mono_left
  intro i hi hd
  have := List.mem_range'_1.1 hi
  exact h c i (by omega) hd

theorem rest_none {cfg : Cfg} {m : Mem} {c line : Nat} (h : rest cfg m c line = 0) {i : Nat}
    (h1 : line ≤ i) (h2 : i < cfg.entries) : isDirty cfg m c i = false := by
  unfold rest at h
  rw [List.countP_eq_zero] at h
  have := h i (List.mem_range'_1.2 (by omega))
  simpa using this

/-- Sum of the first `n` values. -/
def sumTo (f : Nat → Nat) : Nat → Nat
  | 0 => 0
  | n + 1 => sumTo f n + f n

theorem sumTo_congr {f g : Nat → Nat} {n : Nat} (h : ∀ i, i < n → f i = g i) :
    sumTo f n = sumTo g n := by
  induction n with
  | zero => rfl
  | succ n ih => rw [sumTo, sumTo, ih (fun i hi => h i (by omega)), h n (by omega)]

theorem sumTo_upd {f : Nat → Nat} {n i v : Nat} (h : i < n) :
    sumTo (upd f i v) n + f i = sumTo f n + v := by
  induction n with
  | zero => omega
  | succ n ih =>
    simp only [sumTo]
    by_cases e : i = n
    · subst e
      rw [upd_same, sumTo_congr (g := f) (fun k hk => upd_ne (by omega))]; omega
    · have := ih (by omega)
      rw [upd_ne (by omega : n ≠ i)]; omega

theorem sumTo_le {f g : Nat → Nat} {n : Nat} (h : ∀ i, i < n → f i ≤ g i) :
    sumTo f n ≤ sumTo g n := by
  induction n with
  | zero => simp [sumTo]
  | succ n ih =>
    have := ih (fun i hi => h i (by omega)); have := h n (by omega)
    simp only [sumTo]; omega

theorem sumTo_eq {f g : Nat → Nat} {n : Nat} (h : ∀ i, i < n → f i ≤ g i)
    (e : sumTo f n = sumTo g n) : ∀ i, i < n → f i = g i := by
  induction n with
  | zero => intro i hi; omega
  | succ n ih =>
    have h1 : ∀ i, i < n → f i ≤ g i := fun i hi => h i (by omega)
    have h2 := sumTo_le h1
    have h3 := h n (by omega)
    simp only [sumTo] at e
    intro i hi
    by_cases e' : i = n
    · subst e'; omega
    · exact ih h1 (by omega) i (by omega)

theorem sumTo_zero {n : Nat} : sumTo (fun _ => 0) n = 0 := by
  induction n with
  | zero => rfl
  | succ n ih => simp [sumTo, ih]

/-! ### The loop over the cores -/

structure SetupInv (n : Nat) (cnt : Nat → Nat) (P : Nat → Prop) (t : Tabs) : Prop where
  done : ∀ c, P c → 0 < cnt c → t.rev c < t.j ∧ t.core (t.rev c) = c ∧ t.count (t.rev c) = cnt c
  own : ∀ k, k < t.j → P (t.core k) ∧ t.rev (t.core k) = k
  above : ∀ k, t.j ≤ k → t.count k = 0
  sum : sumTo t.count n = t.total
  zero : t.total = 0 → ∀ c, P c → cnt c = 0
  le : t.j ≤ n
  tab : t.tab = fun _ => []
  line : t.line = 0
  found : t.found = 0

theorem setupCores_inv {n : Nat} {cnt : Nat → Nat} (cs : List Nat) :
    ∀ (P : Nat → Prop) (t : Tabs), SetupInv n cnt P t → cs.Nodup → (∀ c ∈ cs, ¬ P c) →
      t.j + cs.length ≤ n → SetupInv n cnt (fun c => P c ∨ c ∈ cs) (setupCores n cnt cs t) := by
  induction cs with
  | nil =>
    intro P t h _ _ _
    simpa [setupCores] using h
  | cons c cs ih =>
    intro P t h hnd hP hle
    rw [List.nodup_cons] at hnd
    simp only [List.length_cons] at hle
    have hPc : ¬ P c := hP c (by simp)
    have hPcs : ∀ d ∈ cs, ¬ (P d ∨ d = c) := by
      intro d hd h'
      rcases h' with h' | h'
      · exact hP d (by simp [hd]) h'
      · subst h'; exact hnd.1 hd
    have hsum : sumTo (upd t.count t.j (cnt c)) n = t.total + cnt c := by
      have := sumTo_upd (f := t.count) (v := cnt c) (show t.j < n by omega)
      rw [h.above t.j (Nat.le_refl _), h.sum] at this; omega
    have hQ : (fun d => (P d ∨ d = c) ∨ d ∈ cs) = (fun d => P d ∨ d ∈ c :: cs) := by
      funext d; simp [or_assoc]
    unfold setupCores
    simp only
    by_cases e : cnt c = 0
    · rw [if_pos e, ← hQ]
      apply ih (fun d => P d ∨ d = c) _ _ hnd.2 hPcs
      · simp only; omega
      · constructor <;> simp only
        · intro d hd hc
          have hd' : P d := by
            rcases hd with hd | rfl
            · exact hd
            · omega
          have hdc : d ≠ c := by rintro rfl; exact hPc hd'
          obtain ⟨h1, h2, h3⟩ := h.done d hd' hc
          rw [upd_ne hdc, upd_ne (by omega), upd_ne (by omega)]
          exact ⟨h1, h2, h3⟩
        · intro k hk
          obtain ⟨h1, h2⟩ := h.own k hk
          rw [upd_ne (by omega : k ≠ t.j)]
          have : t.core k ≠ c := by rintro h'; rw [h'] at h1; exact hPc h1
          rw [upd_ne this]
          exact ⟨Or.inl h1, h2⟩
        · intro k hk
          by_cases ek : k = t.j
          · subst ek; rw [upd_same]; exact e
          · rw [upd_ne ek]; exact h.above k hk
        · exact hsum
        · intro h0 d hd
          rcases hd with hd | rfl
          · exact h.zero (by omega) d hd
          · exact e
        · exact h.le
        · exact h.tab
        · exact h.line
        · exact h.found
    · rw [if_neg e]
      have hI : SetupInv n cnt (fun d => P d ∨ d = c)
          { t with core := upd t.core t.j c, rev := upd t.rev c t.j,
                   count := upd t.count t.j (cnt c), total := t.total + cnt c, j := t.j + 1 } := by
        constructor <;> simp only
        · intro d hd hc
          by_cases hdc : d = c
          · subst hdc
            rw [upd_same, upd_same, upd_same]
            exact ⟨by omega, rfl, rfl⟩
          · have hd' : P d := by
              rcases hd with hd | hd
              · exact hd
              · exact absurd hd hdc
            obtain ⟨h1, h2, h3⟩ := h.done d hd' hc
            rw [upd_ne hdc, upd_ne (by omega), upd_ne (by omega)]
            exact ⟨by omega, h2, h3⟩
        · intro k hk
          by_cases ek : k = t.j
          · subst ek; rw [upd_same, upd_same]; exact ⟨Or.inr rfl, rfl⟩
          · obtain ⟨h1, h2⟩ := h.own k (by omega)
            rw [upd_ne ek]
            have : t.core k ≠ c := by rintro h'; rw [h'] at h1; exact hPc h1
            rw [upd_ne this]
            exact ⟨Or.inl h1, h2⟩
        · intro k hk
          rw [upd_ne (by omega)]; exact h.above k (by omega)
        · exact hsum
        · intro h0; omega
        · omega
        · exact h.tab
        · exact h.line
        · exact h.found
      by_cases e' : t.j + 1 = n
      · rw [if_pos e']
        have : cs = [] := List.eq_nil_of_length_eq_zero (by omega)
        subst this
        simpa [or_comm] using hI
      · rw [if_neg e', ← hQ]
        exact ih (fun d => P d ∨ d = c) _ hI hnd.2 hPcs (by simp only; omega)

/-- What the tables satisfy while they are being filled. -/
structure ScanInv (cfg : Cfg) (m : Mem) (t : Tabs) : Prop where
  line : t.line ≤ cfg.entries
  cover : ∀ c i, Wanted cfg c → i < cfg.entries → isDirty cfg m c i = true →
    t.line ≤ i ∨ i ∈ t.tab (t.rev c)
  live : ∀ c, Wanted cfg c → 0 < dirtyCount cfg m c →
    t.rev c < fcnum cfg ∧ t.core (t.rev c) = c ∧
      (t.tab (t.rev c)).length + rest cfg m c t.line ≤ t.count (t.rev c)
  own : ∀ k, k < fcnum cfg → 0 < t.count k → Wanted cfg (t.core k) ∧ t.rev (t.core k) = k
  room : ∀ k, k < fcnum cfg → (t.tab k).length ≤ t.count k
  sumc : sumTo t.count (fcnum cfg) = t.total
  sumt : sumTo (fun k => (t.tab k).length) (fcnum cfg) = t.found

/-- Conditions on the constants: sector and line sizes are positive, the cores are different
and not more than `core_count`. -/
structure CfgOk (cfg : Cfg) : Prop where
  line : 0 < cfg.lineSize ∧ cfg.lineSize ≤ 65536
  nodup : cfg.cores.Nodup
  count : cfg.cores.length ≤ cfg.coreCount

theorem setup_inv {cfg : Cfg} (ok : CfgOk cfg) (m : Mem) :
    ScanInv cfg m (setup cfg m) ∧
      ((setup cfg m).total = 0 → ∀ c, Wanted cfg c → dirtyCount cfg m c = 0) := by
  unfold setup
  cases hop : cfg.op with
  | core d =>
    simp only
    have hw : ∀ c, Wanted cfg c ↔ c = d := by intro c; simp [Wanted, hop]
    have hn : fcnum cfg = 1 := by simp [fcnum, hop]
    refine ⟨⟨?_, ?_, ?_, ?_, ?_, ?_, ?_⟩, ?_⟩ <;> simp only [Tabs.zero, hn, hw]
    · omega
    · intro c i _ _ _; left; omega
    · rintro c rfl h
      refine ⟨by omega, upd_same _ _ _, ?_⟩
      rw [upd_same, rest_zero]; simp
    · intro k hk _
      have : k = 0 := by omega
      subst this
      exact ⟨upd_same _ _ _, rfl⟩
    · intro k hk; simp
    · simp [sumTo, upd_same]
    · simp [sumTo]
    · rintro h c rfl; exact h
  | all =>
    simp only
    have hw : ∀ c, Wanted cfg c ↔ c ∈ cfg.cores := by intro c; simp [Wanted, hop]
    have hn : fcnum cfg = cfg.coreCount := by simp [fcnum, hop]
    have h0 : SetupInv cfg.coreCount (dirtyCount cfg m) (fun _ => False) Tabs.zero := by
      constructor <;> simp [Tabs.zero, sumTo_zero]
    have h := setupCores_inv cfg.cores _ _ h0 ok.nodup (by simp) (by
      have := ok.count; simpa [Tabs.zero] using this)
    simp only [false_or] at h
    generalize setupCores cfg.coreCount (dirtyCount cfg m) cfg.cores Tabs.zero = t at h
    have hle := h.le
    refine ⟨⟨?_, ?_, ?_, ?_, ?_, ?_, ?_⟩, ?_⟩ <;> try simp only [hn, hw]
    · rw [h.line]; omega
    · intro c i _ _ _; left; rw [h.line]; omega
    · intro c hc hd
      obtain ⟨h1, h2, h3⟩ := h.done c hc hd
      refine ⟨by omega, h2, ?_⟩
      rw [h3, h.line, h.tab, rest_zero]; simp
    · intro k hk hc
      by_cases ek : k < t.j
      · exact h.own k ek
      · rw [h.above k (by omega)] at hc; omega
    · intro k hk; rw [h.tab]; simp
    · exact h.sum
    · rw [h.tab, h.found]; simp [sumTo_zero]
    · intro h0 c hc; exact h.zero h0 c hc

theorem takes_some {cfg : Cfg} {m : Mem} (g : Good cfg m) {i c : Nat} (hi : i < cfg.entries)
    (h : takes cfg m i = some c) : Wanted cfg c ∧ isDirty cfg m c i = true := by
  unfold takes at h
  unfold Wanted isDirty
  cases ho : (m.lines i).owner with
  | none => simp [ho] at h
  | some o =>
    obtain ⟨d, k⟩ := o
    simp only [ho] at h ⊢
    cases hop : cfg.op with
    | core d' =>
      simp only [hop] at h ⊢
      by_cases e : (decide (d = d') && anyDirty cfg.sectors (m.lines i)) = true
      · rw [if_pos e] at h; cases h
        simp only [Bool.and_eq_true, decide_eq_true_eq] at e
        exact ⟨e.1, by simp [e.2]⟩
      · rw [if_neg e] at h; cases h
    | all =>
      simp only [hop] at h ⊢
      by_cases e : anyDirty cfg.sectors (m.lines i) = true
      · rw [if_pos e] at h; cases h
        exact ⟨g.incores i _ _ hi ho, by simp [e]⟩
      · rw [if_neg e] at h; cases h

theorem takes_none {cfg : Cfg} {m : Mem} {i c : Nat}
    (h : takes cfg m i = none) (hw : Wanted cfg c) : isDirty cfg m c i = false := by
  unfold takes at h
  unfold Wanted at hw
  unfold isDirty
  cases ho : (m.lines i).owner with
  | none => rfl
  | some o =>
    obtain ⟨d, k⟩ := o
    simp only [ho] at h ⊢
    cases hop : cfg.op with
    | core d' =>
      simp only [hop] at h hw
      subst hw
      by_cases e : (decide (d = c) && anyDirty cfg.sectors (m.lines i)) = true
      · rw [if_pos e] at h; cases h
      · simpa using e
    | all =>
      simp only [hop] at h hw
      by_cases e : anyDirty cfg.sectors (m.lines i) = true
      · rw [if_pos e] at h; cases h
      · simp only [Bool.not_eq_true] at e; simp [e]

theorem ScanInv.mono {cfg : Cfg} {m m' : Mem} {t : Tabs} (h : ScanInv cfg m t)
    (hs : Shr cfg m m') : ScanInv cfg m' t := by
  refine ⟨h.line, ?_, ?_, h.own, h.room, h.sumc, h.sumt⟩
  · intro c i hw hi hd; exact h.cover c i hw hi (hs c i hi hd)
  · intro c hw hd
    have := dirtyCount_mono hs c
    obtain ⟨h1, h2, h3⟩ := h.live c hw (by omega)
    have := rest_mono hs c t.line
    exact ⟨h1, h2, by omega⟩

theorem dirtyCount_pos {cfg : Cfg} {m : Mem} {c i : Nat} (hi : i < cfg.entries)
    (h : isDirty cfg m c i = true) : 0 < dirtyCount cfg m c := by
  rw [Nat.pos_iff_ne_zero]
  intro h0
  rw [dirtyCount_zero.1 h0 i hi] at h; cases h

theorem ScanInv.skip {cfg : Cfg} {m : Mem} {t : Tabs} (h : ScanInv cfg m t)
    (hl : t.line < cfg.entries) (hn : takes cfg m t.line = none) :
    ScanInv cfg m { t with line := t.line + 1 } := by
  refine ⟨by simp only; omega, ?_, ?_, h.own, h.room, h.sumc, h.sumt⟩ <;> simp only
  · intro c i hw hi hd
    rcases h.cover c i hw hi hd with h1 | h1
    · left
      have : i ≠ t.line := by rintro rfl; rw [takes_none hn hw] at hd; cases hd
      omega
    · exact Or.inr h1
  · intro c hw hd
    obtain ⟨h1, h2, h3⟩ := h.live c hw hd
    rw [rest_succ hl] at h3
    exact ⟨h1, h2, by omega⟩

theorem ScanInv.add {cfg : Cfg} {m : Mem} {t : Tabs} (h : ScanInv cfg m t)
    (hl : t.line < cfg.entries) {c : Nat} (hw : Wanted cfg c)
    (hd : isDirty cfg m c t.line = true) :
    (t.tab (t.rev c)).length < t.count (t.rev c) ∧
    ScanInv cfg m { t with tab := upd t.tab (t.rev c) (t.tab (t.rev c) ++ [t.line]),
                           found := t.found + 1, line := t.line + 1 } := by
  obtain ⟨h1, h2, h3⟩ := h.live c hw (dirtyCount_pos hl hd)
  rw [rest_succ hl, if_pos hd] at h3
  refine ⟨by omega, ⟨by simp only; omega, ?_, ?_, h.own, ?_, h.sumc, ?_⟩⟩ <;> simp only
  · intro d i hwd hi hdi
    rcases h.cover d i hwd hi hdi with h4 | h4
    · by_cases e : i = t.line
      · right
        subst e
        have : d = c := by
          obtain ⟨k, ho, _⟩ := isDirty_iff.1 hd
          obtain ⟨k', ho', _⟩ := isDirty_iff.1 hdi
          rw [ho] at ho'; cases ho'; rfl
        subst this
        rw [upd_same]; simp
      · left; omega
    · right
      by_cases e : t.rev d = t.rev c
      · rw [e, upd_same, ← e]; simp [h4]
      · rw [upd_ne e]; exact h4
  · intro d hwd hdd
    obtain ⟨h4, h5, h6⟩ := h.live d hwd hdd
    refine ⟨h4, h5, ?_⟩
    by_cases e : t.rev d = t.rev c
    · have : d = c := by rw [← h5, e, h2]
      subst this
      rw [upd_same]
      simp only [List.length_append, List.length_singleton]; omega
    · rw [upd_ne e]
      rw [rest_succ hl] at h6; omega
  · intro k hk
    by_cases e : k = t.rev c
    · subst e; rw [upd_same]; simp only [List.length_append, List.length_singleton]; omega
    · rw [upd_ne e]; exact h.room k hk
  · have h7 := sumTo_upd (f := fun k => (t.tab k).length) (v := (t.tab (t.rev c)).length + 1) h1
    have h8 : (fun k => (upd t.tab (t.rev c) (t.tab (t.rev c) ++ [t.line]) k).length)
        = upd (fun k => (t.tab k).length) (t.rev c) ((t.tab (t.rev c)).length + 1) := by
      funext k; simp only [upd]; split <;> simp
    rw [h8]
    have := h.sumt
    omega

/-! ### The containers -/

/-- All dirty lines of the core of the container are among its entries from `off` on. -/
def Cov (cfg : Cfg) (m : Mem) (fc : Cont) (off : Nat) : Prop :=
  ∀ i, i < cfg.entries → isDirty cfg m fc.core i = true → i ∈ fc.data.drop off

def ContInv (cfg : Cfg) (m : Mem) (err : Int) (fc : Cont) : Prop :=
  fc.count = fc.data.length ∧
  match fc.st with
  | .idle => 0 < fc.count → fc.iter = 0 ∧ Cov cfg m fc 0
  | .queued => Cov cfg m fc fc.iter
  | .cleaning off => Cov cfg m fc off ∧ off ≤ fc.iter
  | .ended e => e ≠ 0 ∨ Cov cfg m fc fc.iter
  | .checked => err ≠ 0 ∨ Cov cfg m fc fc.iter
  | .closing => err ≠ 0 ∨ dirtyCount cfg m fc.core = 0
  | .closed => err ≠ 0 ∨ dirtyCount cfg m fc.core = 0

theorem Cov.mono {cfg : Cfg} {m m' : Mem} {fc : Cont} {off : Nat} (h : Cov cfg m fc off)
    (hs : Shr cfg m m') : Cov cfg m' fc off := fun i hi hd => h i hi (hs _ i hi hd)

theorem ContInv.mono {cfg : Cfg} {m m' : Mem} {err : Int} {fc : Cont}
    (h : ContInv cfg m err fc) (hs : Shr cfg m m') : ContInv cfg m' err fc := by
  unfold ContInv at *
  refine ⟨h.1, ?_⟩
  have h2 := h.2
  have hd := dirtyCount_mono hs fc.core
  cases hst : fc.st with
  | idle => rw [hst] at h2; exact fun hc => ⟨(h2 hc).1, (h2 hc).2.mono hs⟩
  | queued => rw [hst] at h2; exact h2.mono hs
  | cleaning off => rw [hst] at h2; exact ⟨h2.1.mono hs, h2.2⟩
  | ended e => rw [hst] at h2; exact h2.imp id (Cov.mono · hs)
  | checked => rw [hst] at h2; exact h2.imp id (Cov.mono · hs)
  | closing => rw [hst] at h2; exact h2.imp id (by omega)
  | closed => rw [hst] at h2; exact h2.imp id (by omega)

theorem ContInv.err {cfg : Cfg} {m : Mem} {err err' : Int} {fc : Cont}
    (h : ContInv cfg m err fc) (he : err ≠ 0 → err' ≠ 0) : ContInv cfg m err' fc := by
  unfold ContInv at *
  refine ⟨h.1, ?_⟩
  have h2 := h.2
  cases hst : fc.st with
  | idle => rw [hst] at h2; exact h2
  | queued => rw [hst] at h2; exact h2
  | cleaning off => rw [hst] at h2; exact h2
  | ended e => rw [hst] at h2; exact h2
  | checked => rw [hst] at h2; exact h2.imp he id
  | closing => rw [hst] at h2; exact h2.imp he id
  | closed => rw [hst] at h2; exact h2.imp he id

/-- The container has been started and has not called its end function. -/
def active (fc : Cont) : Bool :=
  match fc.st with
  | .idle => false
  | .closed => false
  | _ => true

structure RunInv (cfg : Cfg) (m : Mem) (err : Int) (conts : List Cont) (next : Nat) : Prop where
  each : ∀ (k : Nat) fc, conts[k]? = some fc → ContInv cfg m err fc
  idle : ∀ (k : Nat) fc, conts[k]? = some fc → fc.st = .idle → next ≤ k ∨ fc.count = 0
  fresh : ∀ (k : Nat) fc, conts[k]? = some fc → next ≤ k → fc.st = .idle
  all : ∀ c, Wanted cfg c → dirtyCount cfg m c = 0 ∨
    ∃ (k : Nat) (fc : Cont), conts[k]? = some fc ∧ fc.core = c ∧ 0 < fc.count

theorem RunInv.mono {cfg : Cfg} {m m' : Mem} {err : Int} {conts : List Cont} {next : Nat}
    (h : RunInv cfg m err conts next) (hs : Shr cfg m m') : RunInv cfg m' err conts next := by
  refine ⟨fun k fc hk => (h.each k fc hk).mono hs, h.idle, h.fresh, fun c hw => ?_⟩
  rcases h.all c hw with h1 | h1
  · left; have := dirtyCount_mono hs c; omega
  · exact Or.inr h1

/-- One container is replaced. -/
theorem RunInv.set {cfg : Cfg} {m : Mem} {err err' : Int} {conts : List Cont} {next : Nat}
    (h : RunInv cfg m err conts next) {k : Nat} {fc fc' : Cont} (hk : conts[k]? = some fc)
    (hc : fc'.core = fc.core) (hn : fc'.count = fc.count) (hst : fc.st ≠ .idle)
    (hst' : fc'.st ≠ .idle) (he : err ≠ 0 → err' ≠ 0) (hI : ContInv cfg m err' fc') :
    RunInv cfg m err' (conts.set k fc') next := by
  have hlt : k < conts.length := by
    rw [List.getElem?_eq_some_iff] at hk; exact hk.1
  refine ⟨?_, ?_, ?_, ?_⟩
  · intro k' fc'' hk'
    by_cases e : k = k'
    · subst e; rw [List.getElem?_set_self hlt] at hk'; cases hk'; exact hI
    · rw [List.getElem?_set_ne e] at hk'; exact (h.each k' fc'' hk').err he
  · intro k' fc'' hk' hs
    by_cases e : k = k'
    · subst e; rw [List.getElem?_set_self hlt] at hk'; cases hk'; exact absurd hs hst'
    · rw [List.getElem?_set_ne e] at hk'; exact h.idle k' fc'' hk' hs
  · intro k' fc'' hk' hs
    by_cases e : k = k'
    · subst e; exact absurd (h.fresh k fc hk hs) hst
    · rw [List.getElem?_set_ne e] at hk'; exact h.fresh k' fc'' hk' hs
  · intro c hw
    rcases h.all c hw with h1 | ⟨k', fc'', hk', h2, h3⟩
    · exact Or.inl h1
    · right
      by_cases e : k = k'
      · subst e
        rw [hk] at hk'; cases hk'
        exact ⟨k, fc', List.getElem?_set_self hlt, by rw [hc, h2], by omega⟩
      · exact ⟨k', fc'', by rw [List.getElem?_set_ne e]; exact hk', h2, h3⟩

/-- The next container is started. -/
theorem RunInv.start {cfg : Cfg} {m : Mem} {err err' : Int} {conts : List Cont} {next : Nat}
    (h : RunInv cfg m err conts next) {fc fc' : Cont} (hk : conts[next]? = some fc)
    (hc : fc'.core = fc.core) (hn : fc'.count = fc.count)
    (hst' : fc'.st ≠ .idle) (he : err ≠ 0 → err' ≠ 0) (hI : ContInv cfg m err' fc') :
    RunInv cfg m err' (conts.set next fc') (next + 1) := by
  have hlt : next < conts.length := by
    rw [List.getElem?_eq_some_iff] at hk; exact hk.1
  refine ⟨?_, ?_, ?_, ?_⟩
  · intro k' fc'' hk'
    by_cases e : next = k'
    · subst e; rw [List.getElem?_set_self hlt] at hk'; cases hk'; exact hI
    · rw [List.getElem?_set_ne e] at hk'; exact (h.each k' fc'' hk').err he
  · intro k' fc'' hk' hs
    by_cases e : next = k'
    · subst e; rw [List.getElem?_set_self hlt] at hk'; cases hk'; exact absurd hs hst'
    · rw [List.getElem?_set_ne e] at hk'
      exact (h.idle k' fc'' hk' hs).imp (by omega) id
  · intro k' fc'' hk' hs
    have e : next ≠ k' := by omega
    rw [List.getElem?_set_ne e] at hk'; exact h.fresh k' fc'' hk' (by omega)
  · intro c hw
    rcases h.all c hw with h1 | ⟨k', fc'', hk', h2, h3⟩
    · exact Or.inl h1
    · right
      by_cases e : next = k'
      · subst e
        rw [hk] at hk'; cases hk'
        exact ⟨next, fc', List.getElem?_set_self hlt, by rw [hc, h2], by omega⟩
      · exact ⟨k', fc'', by rw [List.getElem?_set_ne e]; exact hk', h2, h3⟩

theorem RunInv.skip {cfg : Cfg} {m : Mem} {err : Int} {conts : List Cont} {next : Nat}
    (h : RunInv cfg m err conts next) {fc : Cont} (hk : conts[next]? = some fc)
    (hn : fc.count = 0) : RunInv cfg m err conts (next + 1) := by
  refine ⟨h.each, ?_, fun k' fc'' hk' hs => h.fresh k' fc'' hk' (by omega), h.all⟩
  intro k' fc'' hk' hs
  by_cases e : next = k'
  · subst e; rw [hk] at hk'; cases hk'; exact Or.inr hn
  · exact (h.idle k' fc'' hk' hs).imp (by omega) id

/-- Nothing the operation was to flush is dirty. -/
def Flushed (cfg : Cfg) (m : Mem) : Prop := ∀ c, Wanted cfg c → dirtyCount cfg m c = 0

theorem Flushed.mono {cfg : Cfg} {m m' : Mem} (h : Flushed cfg m) (hs : Shr cfg m m') :
    Flushed cfg m' := fun c hw => by have := h c hw; have := dirtyCount_mono hs c; omega

/-- An error which has not reached `fcs.error` yet. -/
def pending (fc : Cont) : Bool :=
  match fc.st with
  | .ended e => decide (e ≠ 0)
  | _ => false

/-- Common part of the phases `start` and `run`. -/
structure Act (cfg : Cfg) (s : St) : Prop where
  compl : s.completions = 0
  frozen : s.frozen = true
  writers : s.writers = 0
  run : RunInv cfg s.mem s.err s.conts s.next
  failed : s.failed = true → s.err ≠ 0 ∨ 0 < s.conts.countP pending
  cause : s.err ≠ 0 ∨ 0 < s.conts.countP pending → s.failed = true ∨ s.seen = true

def Body (cfg : Cfg) (s : St) : Prop :=
  match s.ph with
  | .begin => s.conts = [] ∧ s.completions = 0 ∧ s.failed = false ∧ s.seen = false
  | .drain => s.conts = [] ∧ s.completions = 0 ∧ s.failed = false ∧ s.seen = false ∧ s.frozen = true
  | .scan => s.conts = [] ∧ s.completions = 0 ∧ s.failed = false ∧ s.seen = false ∧
      s.frozen = true ∧ s.writers = 0 ∧ ScanInv cfg s.mem s.tabs
  | .start => Act cfg s ∧ s.refs = s.conts.countP active + 1
  | .run => Act cfg s ∧ s.refs = s.conts.countP active ∧ 0 < s.refs ∧ s.conts.length ≤ s.next
  | .flushed e => s.completions = 1 ∧ s.frozen = true ∧ s.writers = 0 ∧ s.conts.countP active = 0 ∧
      (e = 0 → Flushed cfg s.mem) ∧ (s.failed = true → e ≠ 0) ∧
      (e ≠ 0 → s.failed = true ∨ s.seen = true)
  | .finished e => s.completions ≤ 1 ∧ s.conts.countP active = 0 ∧ (e = 0 → Flushed cfg s.mem) ∧
      (s.failed = true → e ≠ 0)

structure Inv (cfg : Cfg) (s : St) : Prop where
  good : Good cfg s.mem
  nobug : s.bug = false
  seen : s.seen = true → s.interrupted = true
  body : Body cfg s

theorem body_active {cfg : Cfg} {s : St} (h : Body cfg s) {k : Nat} {fc : Cont}
    (hk : s.conts[k]? = some fc) (ha : active fc = true) : s.ph = .start ∨ s.ph = .run := by
  have hpos := countP_pos_of_get active _ _ _ hk ha
  unfold Body at h
  cases hp : s.ph <;> rw [hp] at h <;> simp only at h
  · rw [h.1] at hk; simp at hk
  · rw [h.1] at hk; simp at hk
  · rw [h.1] at hk; simp at hk
  · exact Or.inl rfl
  · exact Or.inr rfl
  · omega
  · omega

theorem body_mem {cfg : Cfg} {s : St} {m : Mem} (h : Body cfg s) (hs : Shr cfg s.mem m)
    : Body cfg { s with mem := m } := by
  unfold Body at *
  cases hp : s.ph <;> rw [hp] at h <;> simp only [hp] at h ⊢
  · exact h
  · exact h
  · exact ⟨h.1, h.2.1, h.2.2.1, h.2.2.2.1, h.2.2.2.2.1, h.2.2.2.2.2.1, h.2.2.2.2.2.2.mono hs⟩
  · obtain ⟨⟨a1, a2, a3, a4, a5, a6⟩, h2⟩ := h
    exact ⟨⟨a1, a2, a3, a4.mono hs, a5, a6⟩, h2⟩
  · obtain ⟨⟨a1, a2, a3, a4, a5, a6⟩, h2⟩ := h
    exact ⟨⟨a1, a2, a3, a4.mono hs, a5, a6⟩, h2⟩
  · exact ⟨h.1, h.2.1, h.2.2.1, h.2.2.2.1, fun e => (h.2.2.2.2.1 e).mono hs, h.2.2.2.2.2⟩
  · exact ⟨h.1, h.2.1, fun e => (h.2.2.1 e).mono hs, h.2.2.2⟩

theorem pending_active {fc : Cont} (h : pending fc = true) : active fc = true := by
  unfold pending active at *
  cases hst : fc.st <;> simp_all

theorem countP_le_of_imp {α : Type} {p q : α → Bool} {l : List α} (h : ∀ x, p x = true → q x = true) :
    l.countP p ≤ l.countP q := List.countP_mono_left (fun x _ => h x)

theorem flushed_of_run {cfg : Cfg} {s : St} (a : Act cfg s) (h0 : s.conts.countP active = 0)
    (hn : s.conts.length ≤ s.next) (he : s.err = 0) : Flushed cfg s.mem := by
  intro c hw
  rcases a.run.all c hw with h1 | ⟨k, fc, hk, hc, hp⟩
  · exact h1
  · have hlt : k < s.conts.length := by
      rw [List.getElem?_eq_some_iff] at hk; exact hk.1
    have hna : active fc = false := by
      cases ha : active fc
      · rfl
      · have := countP_pos_of_get active _ _ _ hk ha; omega
    have hI := (a.run.each k fc hk).2
    cases hst : fc.st <;> simp only [active, hst] at hna
    · have := a.run.idle k fc hk hst; omega
    all_goals first | (exfalso; exact absurd hna (by decide)) | skip
    rw [hst] at hI; simp only at hI
    rcases hI with h | h
    · exact absurd he h
    · rw [← hc]; exact h

theorem body_dropRef {cfg : Cfg} {s : St} (a : Act cfg s)
    (h : (s.ph = .run ∧ s.refs = s.conts.countP active + 1 ∧ s.conts.length ≤ s.next) ∨
         (s.ph = .start ∧ s.refs = s.conts.countP active + 2)) : Body cfg (dropRef s) := by
  unfold dropRef
  by_cases e : s.refs - 1 ≠ 0
  · rw [if_pos e]
    rcases h with ⟨hp, hr, hn⟩ | ⟨hp, hr⟩
    · unfold Body; simp only [hp]
      exact ⟨⟨a.compl, a.frozen, a.writers, a.run, a.failed, a.cause⟩, by omega, by omega, hn⟩
    · unfold Body; simp only [hp]
      exact ⟨⟨a.compl, a.frozen, a.writers, a.run, a.failed, a.cause⟩, by omega⟩
  · rw [if_neg e]
    rcases h with ⟨hp, hr, hn⟩ | ⟨hp, hr⟩
    · have h0 : s.conts.countP active = 0 := by omega
      have hpe : s.conts.countP pending = 0 := by
        have := countP_le_of_imp (l := s.conts) (fun x => pending_active (fc := x)); omega
      unfold Body; simp only
      refine ⟨by rw [a.compl], a.frozen, a.writers, h0, fun he => flushed_of_run a h0 hn he, ?_, ?_⟩
      · intro hf; have := a.failed hf; rw [hpe] at this; simpa using this
      · intro hf; exact a.cause (Or.inl hf)
    · omega

theorem dropRef_fields (s : St) : (dropRef s).mem = s.mem ∧ (dropRef s).bug = s.bug ∧
    (dropRef s).seen = s.seen ∧ (dropRef s).interrupted = s.interrupted := by
  unfold dropRef; split <;> exact ⟨rfl, rfl, rfl, rfl⟩

/-- The tables are complete. -/
theorem scanEnd_inv {cfg : Cfg} {m : Mem} {t : Tabs} (h : ScanInv cfg m t)
    (hend : cfg.entries ≤ t.line ∨ t.found = t.total) :
    RunInv cfg m 0 (mkConts cfg t) 0 := by
  have heq : t.found = t.total → ∀ k, k < fcnum cfg → (t.tab k).length = t.count k := by
    intro e
    exact sumTo_eq (f := fun k => (t.tab k).length) (g := t.count) h.room (by
      rw [h.sumt, h.sumc]; exact e)
  have hcov : ∀ c i, Wanted cfg c → i < cfg.entries → isDirty cfg m c i = true →
      i ∈ t.tab (t.rev c) := by
    intro c i hw hi hd
    rcases h.cover c i hw hi hd with h1 | h1
    · exfalso
      rcases hend with h2 | h2
      · omega
      · obtain ⟨h3, h4, h5⟩ := h.live c hw (dirtyCount_pos hi hd)
        have h6 := heq h2 _ h3
        have : rest cfg m c t.line = 0 := by omega
        rw [rest_none this h1 hi] at hd; cases hd
    · exact h1
  have hget : ∀ (k : Nat) fc, (mkConts cfg t)[k]? = some fc → k < fcnum cfg ∧ fc.core = t.core k ∧
      fc.data = t.tab k ∧ fc.count = (t.tab k).length ∧ fc.iter = 0 ∧ fc.st = .idle := by
    intro k fc hk
    unfold mkConts at hk
    rw [List.getElem?_map] at hk
    by_cases e : k < fcnum cfg
    · rw [List.getElem?_range e] at hk
      simp only [Option.map_some, Option.some.injEq] at hk
      subst hk
      refine ⟨e, rfl, rfl, ?_, rfl, rfl⟩
      cases hop : cfg.op with
      | core d =>
        simp only
        have hn : fcnum cfg = 1 := by simp [fcnum, hop]
        have hs := h.sumt
        rw [hn] at hs e
        have : k = 0 := by omega
        subst this
        simpa [sumTo] using hs.symm
      | all =>
        simp only
        by_cases ef : t.total = t.found
        · rw [if_pos ef]; exact (heq ef.symm k e).symm
        · rw [if_neg ef]
    · rw [List.getElem?_eq_none (by simpa using e)] at hk; simp at hk
  refine ⟨?_, ?_, ?_, ?_⟩
  · intro k fc hk
    obtain ⟨h1, h2, h3, h4, h5, h6⟩ := hget k fc hk
    refine ⟨by rw [h3, h4], ?_⟩
    rw [h6]
    simp only
    intro hpos
    refine ⟨h5, ?_⟩
    intro i hi hd
    rw [h2] at hd
    have hr := h.room k h1
    obtain ⟨h7, h8⟩ := h.own k h1 (by omega)
    have := hcov _ i h7 hi hd
    rw [h8] at this
    rw [h3]; simpa using this
  · intro k fc hk _; left; omega
  · intro k fc hk _; exact (hget k fc hk).2.2.2.2.2
  · intro c hw
    by_cases e : dirtyCount cfg m c = 0
    · exact Or.inl e
    · right
      obtain ⟨h3, h4, h5⟩ := h.live c hw (by omega)
      have hex : ∃ fc, (mkConts cfg t)[t.rev c]? = some fc := by
        unfold mkConts
        rw [List.getElem?_map, List.getElem?_range h3]
        exact ⟨_, rfl⟩
      obtain ⟨fc, hfc⟩ := hex
      obtain ⟨h6, h7, h8, h9, h10, h11⟩ := hget _ fc hfc
      refine ⟨_, fc, hfc, by rw [h7, h4], ?_⟩
      have : ∃ i, i < cfg.entries ∧ isDirty cfg m c i = true := by
        by_contra hne
        apply e
        rw [dirtyCount_zero]
        intro i hi
        cases hd : isDirty cfg m c i
        · rfl
        · exact absurd ⟨i, hi, hd⟩ hne
      obtain ⟨i, hi, hd⟩ := this
      have := hcov c i hw hi hd
      rw [h9]
      exact List.length_pos_of_mem this

theorem mkConts_idle {cfg : Cfg} {t : Tabs} (p : Cont → Bool)
    (hp : ∀ fc : Cont, fc.st = .idle → p fc = false) : (mkConts cfg t).countP p = 0 := by
  rw [List.countP_eq_zero]
  intro fc hfc
  unfold mkConts at hfc
  rw [List.mem_map] at hfc
  obtain ⟨k, _, rfl⟩ := hfc
  simp [hp]

theorem body_scanEnd {cfg : Cfg} {s : St} (h : ScanInv cfg s.mem s.tabs)
    (hend : cfg.entries ≤ s.tabs.line ∨ s.tabs.found = s.tabs.total)
    (h1 : s.completions = 0) (h2 : s.failed = false) (h4 : s.frozen = true)
    (h5 : s.writers = 0) : Body cfg (scanEnd cfg s) := by
  unfold Body scanEnd
  simp only
  have ha : (mkConts cfg s.tabs).countP active = 0 := mkConts_idle _ (by intro fc h; simp [active, h])
  have hp : (mkConts cfg s.tabs).countP pending = 0 := mkConts_idle _ (by intro fc h; simp [pending, h])
  refine ⟨⟨h1, h4, h5, scanEnd_inv h hend, ?_, ?_⟩, by rw [ha]⟩
  · intro hf; rw [h2] at hf; cases hf
  · intro hf; rw [hp] at hf; simp at hf

theorem nextPortion_pos {ls prev ms : Nat} (h : 0 < ls ∧ ls ≤ 65536) : 0 < nextPortion ls prev ms := by
  unfold nextPortion
  have : 0 < flushMin ls := by
    unfold flushMin
    exact Nat.div_pos (by omega) h.1
  simp only
  omega

/-- A step of a container that stays active. -/
theorem body_set {cfg : Cfg} {s : St} (b : Body cfg s) {k : Nat} {fc fc' : Cont} {err' : Int}
    {seen' failed' : Bool}
    (hk : s.conts[k]? = some fc) (ha : active fc = true) (ha' : active fc' = true)
    (hc : fc'.core = fc.core) (hn : fc'.count = fc.count) (he : s.err ≠ 0 → err' ≠ 0)
    (hI : ContInv cfg s.mem s.err fc → ContInv cfg s.mem err' fc')
    (hf : (s.failed = true → s.err ≠ 0 ∨ 0 < s.conts.countP pending) →
      (failed' = true → err' ≠ 0 ∨ 0 < (s.conts.set k fc').countP pending))
    (hcs : (s.err ≠ 0 ∨ 0 < s.conts.countP pending → s.failed = true ∨ s.seen = true) →
      (err' ≠ 0 ∨ 0 < (s.conts.set k fc').countP pending → failed' = true ∨ seen' = true)) :
    Body cfg { s with conts := s.conts.set k fc', err := err', seen := seen', failed := failed' } := by
  have hne : ∀ x : Cont, active x = true → x.st ≠ .idle := by
    intro x hx h; simp [active, h] at hx
  have hcnt := countP_set active s.conts k fc' fc hk
  rw [ha, ha'] at hcnt
  have hA : Act cfg s → Act cfg { s with conts := s.conts.set k fc', err := err', seen := seen', failed := failed' } := by
    intro a
    exact ⟨a.compl, a.frozen, a.writers,
      a.run.set hk hc hn (hne _ ha) (hne _ ha') he (hI (a.run.each k fc hk)), hf a.failed, hcs a.cause⟩
  rcases body_active b hk ha with hp | hp
  · unfold Body at b ⊢; simp only [hp] at b ⊢
    have a := hA b.1
    exact ⟨⟨a.compl, a.frozen, a.writers, a.run, a.failed, a.cause⟩, by have := b.2; omega⟩
  · unfold Body at b ⊢; simp only [hp] at b ⊢
    have := b.2
    have a := hA b.1
    exact ⟨⟨a.compl, a.frozen, a.writers, a.run, a.failed, a.cause⟩, by omega, by omega,
      by simpa using this.2.2⟩

theorem record_ne {err e : Int} (h : err ≠ 0 ∨ e ≠ 0) : record err e ≠ 0 := by
  unfold record; split
  · rcases h with h | h
    · contradiction
    · exact h
  · assumption

theorem flushPortion_inv {cfg : Cfg} (ok : CfgOk cfg) {s : St} (b : Body cfg s) {k : Nat} {fc : Cont}
    (hk : s.conts[k]? = some fc) (hst : fc.st = .queued) (ms : Nat) :
    Body cfg (flushPortion cfg s k fc ms) ∧ (flushPortion cfg s k fc ms).bug = s.bug := by
  have ha : active fc = true := by simp [active, hst]
  have hcI : ContInv cfg s.mem s.err fc := by
    rcases body_active b hk ha with hp | hp <;> unfold Body at b <;> simp only [hp] at b <;>
      exact b.1.run.each k fc hk
  have hcov : Cov cfg s.mem fc fc.iter := by have := hcI.2; rw [hst] at this; exact this
  have hlen := hcI.1
  have hpe := fun fc' => countP_set pending s.conts k fc' fc hk
  have hp0 : pending fc = false := by simp [pending, hst]
  unfold flushPortion
  simp only
  by_cases e : dirtyCount cfg s.mem fc.core = 0
  · rw [if_pos e]
    refine ⟨body_set (err' := s.err) (seen' := s.seen) (failed' := s.failed) b hk ha (by simp [active]) rfl rfl id ?_ ?_ ?_, rfl⟩
    · intro _
      refine ⟨hlen, Or.inr ?_⟩
      intro i hi hd
      have := dirtyCount_zero.1 e i hi
      simp only at hd; rw [this] at hd; cases hd
    · have := hpe { fc with iter := fc.count, st := .ended 0 }
      simp only [hp0, pending] at this
      intro h hf; have := h hf; grind
    · have := hpe { fc with iter := fc.count, st := .ended 0 }
      simp only [hp0, pending] at this
      intro h hf; apply h; grind
  · rw [if_neg e]
    have hpos := nextPortion_pos (prev := fc.portion) (ms := ms) ok.line
    have hcount : dirtyCount cfg s.mem fc.core ≤ (fc.data.drop fc.iter).length :=
      count_le_length hcov
    rw [List.length_drop] at hcount
    rw [if_neg (by omega), if_neg (by omega)]
    refine ⟨body_set (err' := s.err) (seen' := s.seen) (failed' := s.failed) b hk ha (by simp [active]) rfl rfl id ?_ ?_ ?_, rfl⟩
    · intro _
      exact ⟨hlen, hcov, Nat.le_add_right _ _⟩
    · have := hpe { fc with portion := nextPortion cfg.lineSize fc.portion ms,
                            iter := fc.iter + min (dirtyCount cfg s.mem fc.core) (nextPortion cfg.lineSize fc.portion ms),
                            st := .cleaning fc.iter }
      simp only [hp0, pending] at this
      intro h hf; have := h hf; grind
    · have := hpe { fc with portion := nextPortion cfg.lineSize fc.portion ms,
                            iter := fc.iter + min (dirtyCount cfg s.mem fc.core) (nextPortion cfg.lineSize fc.portion ms),
                            st := .cleaning fc.iter }
      simp only [hp0, pending] at this
      intro h hf; apply h; grind

theorem inv_step {cfg : Cfg} (ok : CfgOk cfg) {s s' : St} (h : Inv cfg s)
    (hst : Step cfg true s s') : Inv cfg s' := by
  obtain ⟨g, nb, hseen, b⟩ := h
  cases hst with
  | mem m hnf hm => exact ⟨memStep_good g hm, nb, hseen, body_mem b (memStep_shr hm)⟩
  | acquire hnf hfr =>
    refine ⟨g, nb, hseen, ?_⟩
    unfold Body at b ⊢
    cases hp : s.ph <;> simp only [hp] at b ⊢
    · exact b
    · exact b
    · rw [b.2.2.2.2.1] at hfr; cases hfr
    · rw [b.1.frozen] at hfr; cases hfr
    · rw [b.1.frozen] at hfr; cases hfr
    · rw [b.2.1] at hfr; cases hfr
    · exact b
  | dirty i c k t v hnf hw hi ht hown =>
    refine ⟨dirty_good g hi ht hown, nb, hseen, ?_⟩
    unfold Body at b ⊢
    cases hp : s.ph <;> simp only [hp] at b ⊢
    · exact b
    · exact b
    · omega
    · have := b.1.writers; omega
    · have := b.1.writers; omega
    · omega
    · rw [hp] at hnf; cases hnf
  | release hw =>
    refine ⟨g, nb, hseen, ?_⟩
    unfold Body at b ⊢
    cases hp : s.ph <;> simp only [hp] at b ⊢
    · exact b
    · exact b
    · omega
    · have := b.1.writers; omega
    · have := b.1.writers; omega
    · omega
    · exact b
  | freeze hp =>
    refine ⟨g, nb, hseen, ?_⟩
    unfold Body at b ⊢; simp only [hp] at b ⊢
    exact ⟨b.1, b.2.1, b.2.2.1, b.2.2.2, trivial⟩
  | busy hp =>
    refine ⟨g, nb, hseen, ?_⟩
    unfold Body at b ⊢; simp only [hp] at b ⊢
    refine ⟨by omega, by rw [b.1]; rfl, fun e => absurd e (by decide), fun _ => by decide⟩
  | zero hp hw =>
    unfold Body at b; simp only [hp] at b
    obtain ⟨b1, b2, b3, b4, b5⟩ := b
    obtain ⟨hS, h0⟩ := setup_inv ok s.mem
    unfold scanBegin
    simp only
    by_cases e : (setup cfg s.mem).total = 0
    · rw [if_pos e]
      cases hop : cfg.op with
      | core c =>
        simp only
        refine ⟨g, nb, by unfold scanEnd; simp [b4], ?_⟩
        refine body_scanEnd hS ?_ b2 b3 b5 hw
        right
        have h2 : setup cfg s.mem = setup cfg s.mem := rfl
        simp only [setup, hop, Tabs.zero] at e ⊢
        omega
      | all =>
        simp only
        refine ⟨g, nb, by simp [b4], ?_⟩
        unfold Body; simp only
        refine ⟨by rw [b2], b5, hw, by rw [b1]; rfl, fun _ => h0 e, ?_, ?_⟩
        · intro hf; rw [b3] at hf; cases hf
        · intro hf; exact absurd rfl hf
    · rw [if_neg e]
      refine ⟨g, nb, by simp [b4], ?_⟩
      unfold Body; simp only
      exact ⟨b1, b2, b3, b4, b5, hw, hS⟩
  | noMem hp hw =>
    unfold Body at b; simp only [hp] at b
    obtain ⟨b1, b2, b3, b4, b5⟩ := b
    refine ⟨g, nb, by simp [b4], ?_⟩
    unfold Body; simp only
    exact ⟨by rw [b2], b5, hw, by rw [b1]; rfl, fun e => absurd e (by decide), fun _ => by decide,
      fun _ => by simp⟩
  | scan hp =>
    unfold Body at b; simp only [hp] at b
    obtain ⟨b1, b2, b3, b4, b5, b6, b7⟩ := b
    unfold scanLine
    simp only
    by_cases hl : s.tabs.line < cfg.entries
    · rw [if_pos hl]
      cases ht : takes cfg s.mem s.tabs.line with
      | none =>
        simp only
        refine ⟨g, nb, hseen, ?_⟩
        unfold Body; simp only [hp]
        exact ⟨b1, b2, b3, b4, b5, b6, b7.skip hl ht⟩
      | some c =>
        simp only
        obtain ⟨hw, hd⟩ := takes_some g hl ht
        obtain ⟨hr, hS⟩ := b7.add hl hw hd
        rw [if_neg (by omega)]
        by_cases ef : s.tabs.found + 1 = s.tabs.total
        · rw [if_pos ef]
          exact ⟨g, nb, hseen, body_scanEnd hS (Or.inr ef) b2 b3 b5 b6⟩
        · rw [if_neg ef]
          refine ⟨g, nb, hseen, ?_⟩
          unfold Body; simp only [hp]
          exact ⟨b1, b2, b3, b4, b5, b6, hS⟩
    · rw [if_neg hl]
      exact ⟨g, nb, hseen, body_scanEnd b7 (Or.inl (by omega)) b2 b3 b5 b6⟩
  | sort k fc d hp hn0 hk hperm =>
    unfold Body at b; simp only [hp] at b
    obtain ⟨a, hr⟩ := b
    have hI := a.run.each k fc hk
    have hidle := a.run.fresh k fc hk (by omega)
    rw [if_pos hI.1]
    refine ⟨g, nb, hseen, ?_⟩
    unfold Body; simp only [hp]
    have h1 := countP_set active s.conts k { fc with data := d } fc hk
    have h2 := countP_set pending s.conts k { fc with data := d } fc hk
    simp only [active, pending, hidle] at h1 h2
    have h1' : (s.conts.set k { fc with data := d }).countP active = s.conts.countP active := by
      simpa [hidle] using h1
    have h2' : (s.conts.set k { fc with data := d }).countP pending = s.conts.countP pending := by
      simpa [hidle] using h2
    have hlt : k < s.conts.length := by
      rw [List.getElem?_eq_some_iff] at hk; exact hk.1
    refine ⟨⟨a.compl, a.frozen, a.writers, ⟨?_, ?_, ?_, ?_⟩, ?_, ?_⟩, by rw [h1']; exact hr⟩
    · intro k' fc' hk'
      by_cases e : k = k'
      · subst e; rw [List.getElem?_set_self hlt] at hk'; cases hk'
        refine ⟨by simp only; rw [hI.1]; exact hperm.length_eq, ?_⟩
        have := hI.2
        simp only [hidle] at this ⊢
        intro hpos
        refine ⟨(this hpos).1, ?_⟩
        intro i hi hd
        have := (this hpos).2 i hi hd
        simp only [List.drop_zero] at this ⊢
        exact hperm.mem_iff.1 this
      · rw [List.getElem?_set_ne e] at hk'; exact a.run.each k' fc' hk'
    · intro k' fc' hk' hs; left; simp only; omega
    · intro k' fc' hk' hs
      by_cases e : k = k'
      · subst e; rw [List.getElem?_set_self hlt] at hk'; cases hk'; exact hidle
      · rw [List.getElem?_set_ne e] at hk'; exact a.run.fresh k' fc' hk' hs
    · intro c hw
      rcases a.run.all c hw with h3 | ⟨k', fc', hk', h3, h4⟩
      · exact Or.inl h3
      · right
        by_cases e : k = k'
        · subst e
          rw [hk] at hk'; cases hk'
          exact ⟨k, _, List.getElem?_set_self hlt, h3, h4⟩
        · exact ⟨k', fc', by rw [List.getElem?_set_ne e]; exact hk', h3, h4⟩
    · rw [h2']; exact a.failed
    · rw [h2']; exact a.cause
  | start memOk hp =>
    unfold Body at b; simp only [hp] at b
    obtain ⟨a, hr⟩ := b
    unfold startOne
    cases hk : s.conts[s.next]? with
    | none =>
      simp only
      obtain ⟨f1, f2, f3, f4⟩ := dropRef_fields { s with ph := .run }
      refine ⟨by rw [f1]; exact g, by rw [f2]; exact nb, by rw [f3, f4]; exact hseen, ?_⟩
      refine body_dropRef (s := { s with ph := .run })
        ⟨a.compl, a.frozen, a.writers, a.run, a.failed, a.cause⟩ ?_
      left
      exact ⟨rfl, hr, by simpa using hk⟩
    | some fc =>
      simp only
      have hI := a.run.each _ fc hk
      have hidle := a.run.fresh _ fc hk (Nat.le_refl _)
      have h1 := fun fc' => countP_set active s.conts s.next fc' fc hk
      have h2 := fun fc' => countP_set pending s.conts s.next fc' fc hk
      have ha : active fc = false := by simp [active, hidle]
      have hpd : pending fc = false := by simp [pending, hidle]
      by_cases e : fc.count = 0
      · rw [if_pos e]
        refine ⟨g, nb, hseen, ?_⟩
        unfold Body; simp only [hp]
        exact ⟨⟨a.compl, a.frozen, a.writers, a.run.skip hk e, a.failed, a.cause⟩, hr⟩
      · rw [if_neg e]
        have hidl := hI.2
        simp only [hidle] at hidl
        obtain ⟨i0, hcv⟩ := hidl (by omega)
        cases memOk with
        | true =>
          simp only [if_true]
          refine ⟨g, nb, hseen, ?_⟩
          unfold Body; simp only [hp]
          have h1' := h1 { fc with st := .queued, portion := flushMin cfg.lineSize }
          have h2' := h2 { fc with st := .queued, portion := flushMin cfg.lineSize }
          rw [ha, show active { fc with st := .queued, portion := flushMin cfg.lineSize } = true from rfl] at h1'
          rw [hpd, show pending { fc with st := .queued, portion := flushMin cfg.lineSize } = false from rfl] at h2'
          simp only [if_true, Bool.false_eq_true, if_false] at h1' h2'
          refine ⟨⟨a.compl, a.frozen, a.writers, a.run.start hk rfl rfl (by simp) id ⟨hI.1, ?_⟩, ?_, ?_⟩,
            by omega⟩
          · simp only; rw [i0]; exact hcv
          · intro hf; have := a.failed hf; simp only; omega
          · intro hf; apply a.cause; simp only at hf; omega
        | false =>
          simp only [Bool.false_eq_true, if_false]
          refine ⟨g, nb, hseen, ?_⟩
          unfold Body; simp only [hp]
          have h1' := h1 { fc with st := .closing }
          rw [ha, show active { fc with st := .closing } = true from rfl] at h1'
          simp only [if_true, Bool.false_eq_true, if_false] at h1'
          have he : record s.err 1000002 ≠ 0 := record_ne (Or.inr (by decide))
          refine ⟨⟨a.compl, a.frozen, a.writers,
            a.run.start hk rfl rfl (by simp) (fun _ => he) ⟨hI.1, Or.inl he⟩, fun _ => Or.inl he,
            fun _ => Or.inl rfl⟩, by omega⟩
  | portion k fc ms hk hst =>
    obtain ⟨h1, h2⟩ := flushPortion_inv ok b hk hst ms
    refine ⟨?_, by rw [h2]; exact nb, ?_, h1⟩
    · have : (flushPortion cfg s k fc ms).mem = s.mem := by
        unfold flushPortion; simp only; (repeat' split) <;> rfl
      rw [this]; exact g
    · have h3 : (flushPortion cfg s k fc ms).seen = s.seen := by
        unfold flushPortion; simp only; (repeat' split) <;> rfl
      have h4 : (flushPortion cfg s k fc ms).interrupted = s.interrupted := by
        unfold flushPortion; simp only; (repeat' split) <;> rfl
      rw [h3, h4]; exact hseen
  | cleaned k fc off e hk hst hon =>
    refine ⟨g, nb, hseen, ?_⟩
    have h2 := countP_set pending s.conts k { fc with st := .ended e } fc hk
    have hpd : pending fc = false := by simp [pending, hst]
    rw [hpd] at h2
    simp only [pending, Bool.false_eq_true, if_false] at h2
    refine body_set (err' := s.err) (seen' := s.seen) b hk (by simp [active, hst]) (by simp [active]) rfl rfl id ?_ ?_ ?_
    · intro hI
      refine ⟨hI.1, ?_⟩
      have hI2 := hI.2
      rw [hst] at hI2
      simp only at hI2 ⊢
      by_cases e0 : e = 0
      · right
        intro i hi hd
        have hm := hI2.1 i hi hd
        have hno := hon rfl e0
        unfold portionLines at hno
        simp only at hd ⊢
        have hsplit : fc.data.drop off = (fc.data.drop off).take (fc.iter - off) ++ fc.data.drop fc.iter := by
          have := (List.take_append_drop (fc.iter - off) (fc.data.drop off)).symm
          rw [List.drop_drop] at this
          have h3 : off + (fc.iter - off) = fc.iter := by omega
          rw [h3] at this
          exact this
        rw [hsplit, List.mem_append] at hm
        rcases hm with hm | hm
        · rw [hno i hm] at hd; cases hd
        · exact hm
      · exact Or.inl e0
    · intro hh hf
      by_cases e0 : e = 0
      · subst e0
        simp only [ne_eq, not_true_eq_false, decide_false, Bool.or_false] at hf
        have := hh hf; simp at h2; omega
      · simp [e0] at h2; right; omega
    · intro hh hf
      by_cases e0 : e = 0
      · subst e0
        simp only [ne_eq, not_true_eq_false, decide_false, Bool.or_false]
        simp at h2; apply hh; omega
      · left; simp [e0]
  | ended k fc e hk hst =>
    unfold portionEnd
    simp only
    refine ⟨g, nb, ?_, ?_⟩
    · simp only; intro hh; rw [Bool.or_eq_true] at hh
      rcases hh with hh | hh
      · exact hseen hh
      · exact hh
    · have h2 := countP_set pending s.conts k { fc with st := .checked } fc hk
      have hpd : pending fc = decide (e ≠ 0) := by simp [pending, hst]
      rw [hpd, show pending { fc with st := .checked } = false from rfl] at h2
      have hrec : ∀ x : Int, x ≠ 0 → (if (s.interrupted && !s.seen) = true then record x (-1000018) else x) ≠ 0 := by
        intro x hx; split
        · exact record_ne (Or.inl hx)
        · exact hx
      refine body_set (failed' := s.failed) b hk (by simp [active, hst]) (by simp [active]) rfl rfl ?_ ?_ ?_ ?_
      · intro h; exact hrec _ (record_ne (Or.inl h))
      · intro hI
        refine ⟨hI.1, ?_⟩
        have hI2 := hI.2
        rw [hst] at hI2
        simp only at hI2 ⊢
        rcases hI2 with h | h
        · left; exact hrec _ (record_ne (Or.inr h))
        · exact Or.inr h
      · intro hh hf
        rcases hh hf with h | h
        · left; exact hrec _ (record_ne (Or.inl h))
        · by_cases e0 : e = 0
          · subst e0; simp at h2; right; omega
          · left; exact hrec _ (record_ne (Or.inr e0))
      · intro hh hf
        by_cases hs : s.seen = true
        · right; simp [hs]
        · by_cases hi : s.interrupted = true
          · right; simp [hi]
          · have hr : (if (s.interrupted && !s.seen) = true then record (record s.err e) (-1000018) else record s.err e) = record s.err e := by
              rw [if_neg (by simp [hi])]
            rw [hr] at hf
            have : s.failed = true ∨ s.seen = true := by
              apply hh
              by_cases e0 : e = 0
              · subst e0
                simp at h2
                rcases hf with hf | hf
                · left; unfold record at hf; split at hf <;> [exact absurd rfl hf; assumption]
                · right; omega
              · simp [e0] at h2; right; omega
            rcases this with h | h
            · exact Or.inl h
            · exact absurd h hs
  | next k fc hk hst =>
    have h2 := countP_set pending s.conts k
    have hpd : pending fc = false := by simp [pending, hst]
    unfold portionNext
    by_cases e : dirtyCount cfg s.mem fc.core = 0 ∨ s.err ≠ 0
    · rw [if_pos e]
      refine ⟨g, nb, hseen, ?_⟩
      have h2' := h2 { fc with st := .closing } fc hk
      rw [hpd, show pending { fc with st := .closing } = false from rfl] at h2'
      simp only [Bool.false_eq_true, if_false] at h2'
      refine body_set (err' := s.err) (seen' := s.seen) (failed' := s.failed) b hk (by simp [active, hst]) (by simp [active]) rfl rfl id ?_ ?_ ?_
      · intro hI; exact ⟨hI.1, e.symm⟩
      · intro hh hf; have := hh hf; omega
      · intro hh hf; apply hh; omega
    · rw [if_neg e]
      refine ⟨g, nb, hseen, ?_⟩
      have h2' := h2 { fc with st := .queued } fc hk
      rw [hpd, show pending { fc with st := .queued } = false from rfl] at h2'
      simp only [Bool.false_eq_true, if_false] at h2'
      refine body_set (err' := s.err) (seen' := s.seen) (failed' := s.failed) b hk (by simp [active, hst]) (by simp [active]) rfl rfl id ?_ ?_ ?_
      · intro hI
        refine ⟨hI.1, ?_⟩
        have hI2 := hI.2
        rw [hst] at hI2
        simp only at hI2 ⊢
        rcases hI2 with h | h
        · exact absurd (Or.inr h) e
        · exact h
      · intro hh hf; have := hh hf; omega
      · intro hh hf; apply hh; omega
  | close k fc hk hst =>
    unfold closeCont
    have ha : active fc = true := by simp [active, hst]
    have hpd : pending fc = false := by simp [pending, hst]
    have h1 := countP_set active s.conts k { fc with st := .closed } fc hk
    have h2 := countP_set pending s.conts k { fc with st := .closed } fc hk
    rw [ha, show active { fc with st := .closed } = false from rfl] at h1
    rw [hpd, show pending { fc with st := .closed } = false from rfl] at h2
    simp only [if_true, Bool.false_eq_true, if_false] at h1 h2
    obtain ⟨f1, f2, f3, f4⟩ := dropRef_fields { s with conts := s.conts.set k { fc with st := .closed } }
    refine ⟨by rw [f1]; exact g, by rw [f2]; exact nb, by rw [f3, f4]; exact hseen, ?_⟩
    have hA : Act cfg s → Act cfg { s with conts := s.conts.set k { fc with st := .closed } } := by
      intro a
      have hI := a.run.each k fc hk
      refine ⟨a.compl, a.frozen, a.writers, a.run.set hk rfl rfl (by simp [hst]) (by simp) id ⟨hI.1, ?_⟩, ?_, ?_⟩
      · have := hI.2; rw [hst] at this; exact this
      · intro hf; have := a.failed hf; simp only; omega
      · intro hf; apply a.cause; simp only at hf; omega
    rcases body_active b hk ha with hp | hp
    · unfold Body at b; simp only [hp] at b
      apply body_dropRef (hA b.1)
      right; exact ⟨hp, by have := b.2; simp only; omega⟩
    · unfold Body at b; simp only [hp] at b
      apply body_dropRef (hA b.1)
      left; exact ⟨hp, by have := b.2; simp only; omega, by have := b.2; simpa using this.2.2⟩
  | interrupt =>
    refine ⟨g, nb, fun _ => rfl, ?_⟩
    unfold Body at b ⊢
    cases hp : s.ph <;> simp only [hp] at b ⊢
    · exact b
    · exact b
    · exact b
    · exact ⟨⟨b.1.compl, b.1.frozen, b.1.writers, b.1.run, b.1.failed, b.1.cause⟩, b.2⟩
    · exact ⟨⟨b.1.compl, b.1.frozen, b.1.writers, b.1.run, b.1.failed, b.1.cause⟩, b.2⟩
    · exact b
    · exact b
  | finish e hp =>
    refine ⟨g, nb, hseen, ?_⟩
    unfold Body at b ⊢; simp only [hp] at b ⊢
    exact ⟨by omega, b.2.2.2.1, b.2.2.2.2.1, b.2.2.2.2.2.1⟩

end Verif.FlushMngt
