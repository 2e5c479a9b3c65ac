import Verif.Model.Account
import Verif.Props.Bits
import Verif.Lemma.Common

/-! Lemmas for the line counters. -/

namespace Verif.Account

open Verif.Bits

theorem ne_zero_iff {w} (v : BitVec w) : v ≠ 0#w ↔ ∃ i, i < w ∧ v.getLsbD i = true := by
  constructor
  · intro h
    apply Classical.byContradiction
    intro hn
    apply h
    apply BitVec.eq_of_getLsbD_eq
    intro i hi
    have : ¬ v.getLsbD i = true := fun hx => hn ⟨i, hi, hx⟩
    simpa using this
  · rintro ⟨i, _, h⟩ rfl
    simp at h

theorem testAny {w} (hw : Width w) (hw0 : 0 < w) (m : BitVec w) :
    testBits m 0 (w - 1) false = some (decide (m ≠ 0#w)) := by
  obtain ⟨t, ht, h1⟩ := testBits_exact hw (Nat.zero_le (w - 1)) (by omega) m false
  rw [ht]
  have : t = true ↔ m ≠ 0#w := by
    rw [h1, ne_zero_iff]
    simp only [Bool.false_eq_true, if_false]
    constructor
    · rintro ⟨i, _, h2, h3⟩; exact ⟨i, by omega, h3⟩
    · rintro ⟨i, h2, h3⟩; exact ⟨i, by omega, by omega, h3⟩
  cases t <;> simp_all

/-- `dirty` implies `valid`, sector by sector. -/
def Sub {w} (l : LineBits w) : Prop := ∀ i, l.dirty.getLsbD i = true → l.valid.getLsbD i = true

theorem Sub.valid_ne {w} {l : LineBits w} (h : Sub l) (hd : l.dirty ≠ 0#w) : l.valid ≠ 0#w := by
  rw [ne_zero_iff] at *
  obtain ⟨i, h1, h2⟩ := hd
  exact ⟨i, h1, h i h2⟩

theorem Sub.dirty_zero {w} {l : LineBits w} (h : Sub l) (hv : l.valid = 0#w) : l.dirty = 0#w := by
  apply Classical.byContradiction
  intro hd
  exact h.valid_ne hd hv

theorem getLsbD_ge {w} (v : BitVec w) (i : Nat) (h : v.getLsbD i = true) : i < w := by
  apply Classical.byContradiction
  intro hi
  rw [BitVec.getLsbD_of_ge v i (by omega)] at h
  cases h

theorem setValid_eq {w a b} (hw : Width w) (h : InLine w a b) (l : LineBits w) :
    ∃ v, setValidSecChanged l a b = some ({ l with valid := v }, decide (l.valid = 0#w)) ∧
      v ≠ 0#w ∧ ∀ i, i < w → (v.getLsbD i = true ↔ (a ≤ i ∧ i ≤ b) ∨ l.valid.getLsbD i = true) := by
  obtain ⟨v, r, h', h1, hr⟩ := setBits_exact hw h.1 h.2 l.valid
  have hr' : r = decide (l.valid ≠ 0#w) := by
    rw [← ne_zero_iff] at hr
    cases r <;> simp_all
  refine ⟨v, by simp [setValidSecChanged, h', hr'], ?_, ?_⟩
  · rw [ne_zero_iff]
    exact ⟨a, by have := h.1; have := h.2; omega, (h1 a (by have := h.1; have := h.2; omega)).2 (Or.inl ⟨Nat.le_refl _, h.1⟩)⟩
  · exact h1

theorem setDirty_eq {w a b} (hw : Width w) (h : InLine w a b) (l : LineBits w) :
    ∃ d c, setDirtySecChanged l a b = some ({ l with dirty := d }, c, decide (l.dirty ≠ 0#w)) ∧
      d ≠ 0#w ∧ (l.dirty = 0#w → c = true) ∧
      ∀ i, i < w → (d.getLsbD i = true ↔ (a ≤ i ∧ i ≤ b) ∨ l.dirty.getLsbD i = true) := by
  obtain ⟨v, r, h', h1, hr⟩ := setBits_exact hw h.1 h.2 l.dirty
  obtain ⟨t, ht, h2⟩ := testBits_exact hw h.1 h.2 l.dirty true
  have hr' : r = decide (l.dirty ≠ 0#w) := by
    rw [← ne_zero_iff] at hr
    cases r <;> simp_all
  have hab := h.1
  have hb := h.2
  refine ⟨v, !t, by simp [setDirtySecChanged, h', ht, hr'], ?_, ?_, ?_⟩
  · rw [ne_zero_iff]
    exact ⟨a, by omega, (h1 a (by omega)).2 (Or.inl ⟨Nat.le_refl _, h.1⟩)⟩
  · intro hd
    rw [hd] at h2
    simp only [if_true] at h2
    cases t
    · rfl
    · have := h2.1 rfl a (Nat.le_refl _) hab
      simp at this
  · exact h1

theorem clearDirty_eq {w a b} (hw : Width w) (h : InLine w a b) (l : LineBits w) :
    ∃ d c, clearDirtySecChanged l a b = some ({ l with dirty := d }, c, decide (d = 0#w)) ∧
      (d = 0#w → (c = true ↔ l.dirty ≠ 0#w)) ∧ (c = false → d = l.dirty) ∧
      ∀ i, i < w → (d.getLsbD i = true ↔ ¬ (a ≤ i ∧ i ≤ b) ∧ l.dirty.getLsbD i = true) := by
  obtain ⟨v, r, h', h1, hr⟩ := clearBits_exact hw h.1 h.2 l.dirty
  obtain ⟨t, ht, h2⟩ := testBits_exact hw h.1 h.2 l.dirty false
  have hr' : r = decide (v ≠ 0#w) := by
    have : r = true ↔ v ≠ 0#w := by
      rw [hr, ne_zero_iff]
      constructor
      · rintro ⟨i, hi, h⟩; exact ⟨i, hi, (h1 i hi).2 h⟩
      · rintro ⟨i, hi, h⟩; exact ⟨i, hi, (h1 i hi).1 h⟩
    cases r <;> simp_all
  simp only [Bool.false_eq_true, if_false] at h2
  have hb := h.2
  refine ⟨v, t, by simp [clearDirtySecChanged, h', ht, hr'], ?_, ?_, h1⟩
  · intro hv
    rw [h2, ne_zero_iff]
    constructor
    · rintro ⟨i, _, hi, hx⟩; exact ⟨i, by omega, hx⟩
    · rintro ⟨i, hi, hx⟩
      apply Classical.byContradiction
      intro hn
      have : v.getLsbD i = true := (h1 i hi).2 ⟨fun hc => hn ⟨i, hc.1, hc.2, hx⟩, hx⟩
      rw [hv] at this
      simp at this
  · rintro rfl
    apply BitVec.eq_of_getLsbD_eq
    intro i hi
    have h3 := h1 i hi
    have h4 : ¬ (a ≤ i ∧ i ≤ b ∧ l.dirty.getLsbD i = true) := fun hc => by
      have := h2.2 ⟨i, hc⟩
      cases this
    rw [Bool.eq_iff_iff, h3]
    constructor
    · exact fun h => h.2
    · exact fun h => ⟨fun hc => h4 ⟨hc.1, hc.2, h⟩, h⟩

theorem clearValid_eq {w a b} (hw : Width w) (h : InLine w a b) (l : LineBits w) :
    ∃ v, clearValidSecChanged l a b =
        some ({ l with valid := v }, decide (l.valid ≠ 0#w) && decide (v = 0#w), decide (v ≠ 0#w)) ∧
      ∀ i, i < w → (v.getLsbD i = true ↔ ¬ (a ≤ i ∧ i ≤ b) ∧ l.valid.getLsbD i = true) := by
  obtain ⟨v, r, h', h1, hr⟩ := clearBits_exact hw h.1 h.2 l.valid
  have hr' : r = decide (v ≠ 0#w) := by
    have : r = true ↔ v ≠ 0#w := by
      rw [hr, ne_zero_iff]
      constructor
      · rintro ⟨i, hi, h⟩; exact ⟨i, hi, (h1 i hi).2 h⟩
      · rintro ⟨i, hi, h⟩; exact ⟨i, hi, (h1 i hi).1 h⟩
    cases r <;> simp_all
  refine ⟨v, ?_, h1⟩
  simp [clearValidSecChanged, h', testAny hw (by have := h.2; omega), hr']

theorem clearAll_eq {w} (hw : Width w) (hw0 : 0 < w) (m : BitVec w) :
    clearBits m 0 (w - 1) = some (0#w, false) := by
  obtain ⟨v, r, h', h1, hr⟩ := clearBits_exact hw (Nat.zero_le (w - 1)) (by omega) m
  have hv : v = 0#w := by
    apply Classical.byContradiction
    intro hn
    obtain ⟨i, hi, hx⟩ := (ne_zero_iff v).1 hn
    exact ((h1 i hi).1 hx).1 ⟨Nat.zero_le _, by omega⟩
  have hr' : r = false := by
    cases r
    · rfl
    · obtain ⟨i, hi, hx⟩ := hr.1 rfl
      exact absurd ⟨Nat.zero_le _, by omega⟩ hx.1
  rw [h', hv, hr']

theorem countP_set_int {α} (q : α → Bool) (xs : List α) (i : Nat) (x y : α) (h : xs[i]? = some x) :
    ((xs.set i y).countP q : Int) = xs.countP q + (if q y then 1 else 0) - (if q x then 1 else 0) := by
  have := countP_set q xs i y x h
  split <;> split <;> simp_all <;> omega

/-- Line of core `c`, class `p`, with a valid sector. -/
def qv {w} (c p : Nat) (l : Line w) : Bool := decide (l.owner = some (c, p)) && decide (l.bits.valid ≠ 0#w)
def qd {w} (c p : Nat) (l : Line w) : Bool := decide (l.owner = some (c, p)) && decide (l.bits.dirty ≠ 0#w)
def qvc {w} (c : Nat) (l : Line w) : Bool := decide (l.owner.map (·.1) = some c) && decide (l.bits.valid ≠ 0#w)
def qdc {w} (c : Nat) (l : Line w) : Bool := decide (l.owner.map (·.1) = some c) && decide (l.bits.dirty ≠ 0#w)

structure Inv {w} (s : St w) : Prop where
  wf : ∀ (i : Nat) (l : Line w), s.lines[i]? = some l → Sub l.bits ∧ (l.owner = none → l.bits.valid = 0#w)
  dir : ∀ c, s.added c = true → s.dirty c = s.lines.countP (qdc c)
  pdir : ∀ c p, s.added c = true → s.pdirty c p = s.lines.countP (qd c p)
  cach : ∀ c, s.added c = true → s.cached c = s.lines.countP (qvc c) + s.skipped c - s.phantom c
  pcach : ∀ c p, s.added c = true →
    s.pcached c p = s.lines.countP (qv c p) + s.pskipped c p - s.pphantom c p + s.carried c p

theorem inv_put {w} {s t : St w} {i : Nat} {l l' : Line w} (hs : Inv s) (hi : s.lines[i]? = some l)
    (ht : t.lines = s.lines.set i l') (ha : t.added = s.added)
    (hwf : Sub l'.bits ∧ (l'.owner = none → l'.bits.valid = 0#w))
    (h1 : ∀ c, s.added c = true →
      t.dirty c = s.dirty c + (if qdc c l' then 1 else 0) - (if qdc c l then 1 else 0))
    (h2 : ∀ c p, s.added c = true →
      t.pdirty c p = s.pdirty c p + (if qd c p l' then 1 else 0) - (if qd c p l then 1 else 0))
    (h3 : ∀ c, s.added c = true → t.cached c - t.skipped c + t.phantom c =
      s.cached c - s.skipped c + s.phantom c + (if qvc c l' then 1 else 0) - (if qvc c l then 1 else 0))
    (h4 : ∀ c p, s.added c = true →
      t.pcached c p - t.pskipped c p + t.pphantom c p - t.carried c p =
      s.pcached c p - s.pskipped c p + s.pphantom c p - s.carried c p
        + (if qv c p l' then 1 else 0) - (if qv c p l then 1 else 0)) : Inv t := by
  constructor
  · intro j x hx
    rw [ht, List.getElem?_set] at hx
    by_cases hij : i = j
    · rw [if_pos hij] at hx
      split at hx
      · cases hx; exact hwf
      · cases hx
    · rw [if_neg hij] at hx
      exact hs.wf j x hx
  · intro c hc
    rw [ha] at hc
    rw [ht, countP_set_int _ _ _ _ _ hi, h1 c hc, hs.dir c hc]
  · intro c p hc
    rw [ha] at hc
    rw [ht, countP_set_int _ _ _ _ _ hi, h2 c p hc, hs.pdir c p hc]
  · intro c hc
    rw [ha] at hc
    rw [ht, countP_set_int _ _ _ _ _ hi]
    have := h3 c hc
    have := hs.cach c hc
    omega
  · intro c p hc
    rw [ha] at hc
    rw [ht, countP_set_int _ _ _ _ _ hi]
    have := h4 c p hc
    have := hs.pcach c p hc
    omega

theorem sub_setValid {w} {l : LineBits w} {v : BitVec w} {a b : Nat} (h : Sub l)
    (hv : ∀ i, i < w → (v.getLsbD i = true ↔ (a ≤ i ∧ i ≤ b) ∨ l.valid.getLsbD i = true)) :
    Sub { l with valid := v } :=
  fun i hi => (hv i (getLsbD_ge _ _ hi)).2 (Or.inr (h i hi))

theorem setValid_inv {w} (hw : Width w) {s t : St w} {i : Nat} {l : Line w} {c p a b : Nat} (hs : Inv s)
    (hh : Holds s i l c p) (hab : InLine w a b) (ht : setValid s i l c p a b = some t) : Inv t := by
  obtain ⟨hi, ho⟩ := hh
  obtain ⟨v, hv, hne, hbit⟩ := setValid_eq hw hab l.bits
  simp only [setValid, hv, Option.bind_eq_bind, Option.bind_some] at ht
  have hwf := hs.wf i l hi
  split at ht <;> cases ht <;>
    refine inv_put (l' := { l with bits := { l.bits with valid := v } }) hs hi rfl rfl
      ⟨sub_setValid hwf.1 hbit, fun hc => by simp [ho] at hc⟩ ?_ ?_ ?_ ?_ <;>
    intros <;> simp [St.put, qd, qdc, qv, qvc, bump, bump2, ho] <;> grind

theorem setDirty_inv {w} (hw : Width w) {s t : St w} {i : Nat} {l : Line w} {c p a b : Nat} (hs : Inv s)
    (hh : Holds s i l c p) (hab : InLine w a b) (hval : testBits l.bits.valid a b true = some true)
    (ht : setDirty s i l c p a b = some t) : Inv t := by
  obtain ⟨hi, ho⟩ := hh
  obtain ⟨d, ch, hd, hne, hc0, hbit⟩ := setDirty_eq hw hab l.bits
  simp only [setDirty, hd, Option.bind_eq_bind, Option.bind_some] at ht
  have hwf := hs.wf i l hi
  have hsub : Sub { l.bits with dirty := d } := by
    intro j hj
    rcases (hbit j (getLsbD_ge _ _ hj)).1 hj with h | h
    · obtain ⟨t', ht', h2⟩ := testBits_exact hw hab.1 hab.2 l.bits.valid true
      rw [ht'] at hval
      cases hval
      simp only [if_true, true_iff] at h2
      exact h2 j h.1 h.2
    · exact hwf.1 j h
  split at ht
  · split at ht <;> cases ht <;>
    refine inv_put (l' := { l with bits := { l.bits with dirty := d } }) hs hi rfl rfl
      ⟨hsub, fun hc => by simp [ho] at hc⟩ ?_ ?_ ?_ ?_ <;>
    intros <;> simp [St.put, qd, qdc, qv, qvc, bump, bump2, ho] <;> grind
  · cases ht
    refine inv_put (l' := { l with bits := { l.bits with dirty := d } }) hs hi rfl rfl
      ⟨hsub, fun hc => by simp [ho] at hc⟩ ?_ ?_ ?_ ?_ <;>
    intros <;> simp [St.put, qd, qdc, qv, qvc, bump, bump2, ho] <;> grind

theorem setClean_inv {w} (hw : Width w) {s t : St w} {i : Nat} {l : Line w} {c p a b : Nat} (hs : Inv s)
    (hh : Holds s i l c p) (hab : InLine w a b) (ht : setClean s i l c p a b = some t) :
    Inv t ∧ ∃ d, t.lines[i]? = some { l with bits := { l.bits with dirty := d } } ∧
      ∀ j, d.getLsbD j = true → ¬ (a ≤ j ∧ j ≤ b) := by
  obtain ⟨hi, ho⟩ := hh
  obtain ⟨d, ch, hd, hc0, hc1, hbit⟩ := clearDirty_eq hw hab l.bits
  simp only [setClean, hd, Option.bind_eq_bind, Option.bind_some] at ht
  have hwf := hs.wf i l hi
  have hlt : i < s.lines.length := by
    rw [List.getElem?_eq_some_iff] at hi
    exact hi.1
  have hsub : Sub { l.bits with dirty := d } :=
    fun j hj => hwf.1 j ((hbit j (getLsbD_ge _ _ hj)).1 hj).2
  refine ⟨?_, d, ?_, fun j hj => ((hbit j (getLsbD_ge _ _ hj)).1 hj).1⟩
  · split at ht
    · split at ht <;> cases ht <;>
      refine inv_put (l' := { l with bits := { l.bits with dirty := d } }) hs hi rfl rfl
        ⟨hsub, fun hc => by simp [ho] at hc⟩ ?_ ?_ ?_ ?_ <;>
      intros <;> simp [St.put, qd, qdc, qv, qvc, bump, bump2, ho] <;> grind
    · cases ht
      refine inv_put (l' := { l with bits := { l.bits with dirty := d } }) hs hi rfl rfl
        ⟨hsub, fun hc => by simp [ho] at hc⟩ ?_ ?_ ?_ ?_ <;>
      intros <;> simp [St.put, qd, qdc, qv, qvc, bump, bump2, ho] <;> grind
  · split at ht
    · split at ht <;> cases ht <;> simp [St.put, hlt]
    · cases ht; simp [St.put, hlt]

theorem lt_of_get {α} {xs : List α} {i : Nat} {x : α} (h : xs[i]? = some x) : i < xs.length := by
  rw [List.getElem?_eq_some_iff] at h
  exact h.1

theorem setInvalid_inv {w} (hw : Width w) {s t : St w} {i : Nat} {l : Line w} {c p a b : Nat}
    {wt : Bool} (hs : Inv s) (hh : Holds s i l c p) (hab : InLine w a b)
    (hdi : ∀ j, l.bits.dirty.getLsbD j = true → ¬ (a ≤ j ∧ j ≤ b))
    (ht : setInvalid s i l c p a b wt = some t) :
    Inv t ∧ ∃ l', t.lines[i]? = some l' ∧ l'.bits.dirty = l.bits.dirty := by
  obtain ⟨hi, ho⟩ := hh
  obtain ⟨v, hv, hbit⟩ := clearValid_eq hw hab l.bits
  simp only [setInvalid, hv, Option.bind_eq_bind, Option.bind_some] at ht
  have hwf := hs.wf i l hi
  have hlt := lt_of_get hi
  have hsub : Sub { l.bits with valid := v } :=
    fun j hj => (hbit j (getLsbD_ge _ _ hj)).2 ⟨hdi j hj, hwf.1 j hj⟩
  have hle : v ≠ 0#w → l.bits.valid ≠ 0#w := by
    rw [ne_zero_iff, ne_zero_iff]
    rintro ⟨j, hj, hx⟩
    exact ⟨j, hj, ((hbit j hj).1 hx).2⟩
  have hd0 : v = 0#w → l.bits.dirty = 0#w := fun h0 => hsub.dirty_zero h0
  split at ht
  · split at ht
    · cases ht
    · cases ht
      refine ⟨?_, _, List.getElem?_set_self hlt, rfl⟩
      refine inv_put (l' := { l with bits := { l.bits with valid := v } }) hs hi rfl rfl
        ⟨hsub, fun hc => by simp [ho] at hc⟩ ?_ ?_ ?_ ?_ <;>
      intros <;> simp [St.put, qd, qdc, qv, qvc, bump, bump2, ho] <;> grind
  · split at ht
    · cases ht
      refine ⟨?_, _, List.getElem?_set_self hlt, rfl⟩
      refine inv_put (l' := { l with bits := { l.bits with valid := v }, fresh := false }) hs hi rfl rfl
        ⟨hsub, fun hc => by simp [ho] at hc⟩ ?_ ?_ ?_ ?_ <;>
      intros <;> simp [St.put, qd, qdc, qv, qvc, bump, bump2, ho] <;> grind
    · have hv0 : v = 0#w := by grind
      have hdz := hd0 hv0
      split at ht <;> cases ht <;> refine ⟨?_, _, List.getElem?_set_self hlt, rfl⟩ <;>
      refine inv_put (l' := { bits := { l.bits with valid := v }, owner := none, fresh := false }) hs hi rfl rfl
        ⟨hsub, fun _ => hv0⟩ ?_ ?_ ?_ ?_ <;>
      intros <;> simp [St.put, qd, qdc, qv, qvc, bump, bump2, ho, hdz] <;> grind

theorem evict_inv {w} (hw : Width w) (hw0 : 0 < w) {s t : St w} {i : Nat} {l : Line w} {c p : Nat} (hs : Inv s)
    (hh : Holds s i l c p) (ht : evict s i l c p = some t) : Inv t := by
  obtain ⟨hi, ho⟩ := hh
  simp only [evict, testAny hw hw0, clearAll_eq hw hw0, Option.bind_eq_bind, Option.bind_some] at ht
  split at ht
  · cases ht
  · rename_i hd
    have hdz : l.bits.dirty = 0#w := by simpa using hd
    cases ht
    refine inv_put (l' := { bits := { l.bits with valid := 0#w }, owner := none, fresh := false }) hs hi rfl rfl
      ⟨by intro j hj; simp [hdz] at hj, fun _ => rfl⟩ ?_ ?_ ?_ ?_ <;>
    intros <;> simp [St.put, qd, qdc, qv, qvc, bump, bump2, ho, hdz] <;> grind

theorem repart_inv {w} (hw : Width w) (hw0 : 0 < w) {s t : St w} {i : Nat} {l : Line w} {c p q : Nat} (hs : Inv s)
    (hh : Holds s i l c p) (ht : repart s i l c p q = some t) : Inv t := by
  obtain ⟨hi, ho⟩ := hh
  simp only [repart, testAny hw hw0, Option.bind_eq_bind, Option.bind_some] at ht
  have hwf := hs.wf i l hi
  split at ht
  · cases ht; exact hs
  · cases ht
    refine inv_put (l' := { l with owner := some (c, q) }) hs hi rfl rfl
      ⟨hwf.1, fun hc => by cases hc⟩ ?_ ?_ ?_ ?_ <;>
    intros <;> simp [St.put, qd, qdc, qv, qvc, ho] <;> grind [bump2]

theorem map_inv {w} {s : St w} {i : Nat} {l : Line w} {c p : Nat} (hs : Inv s)
    (hi : s.lines[i]? = some l) (ho : l.owner = none) : Inv (map s i l c p) := by
  have hwf := hs.wf i l hi
  have hv := hwf.2 ho
  have hd := hwf.1.dirty_zero hv
  refine inv_put (l' := { l with owner := some (c, p), fresh := true }) hs hi rfl rfl
    ⟨hwf.1, fun hc => by cases hc⟩ ?_ ?_ ?_ ?_ <;>
  intros <;> simp [map, St.put, qd, qdc, qv, qvc, ho, hv, hd]

theorem purge_inv {w} (hw : Width w) {s t : St w} {i : Nat} {l : Line w} {c p a b : Nat}
    {wt : Bool} (hs : Inv s) (hh : Holds s i l c p) (hab : InLine w a b)
    (ht : purge s i l c p a b wt = some t) : Inv t := by
  simp only [purge, Option.bind_eq_bind, Option.bind_eq_some_iff] at ht
  obtain ⟨s1, h1, l1, h2, h3⟩ := ht
  obtain ⟨hi1, d, hg, hd⟩ := setClean_inv hw hs hh hab h1
  rw [hg] at h2
  cases h2
  exact (setInvalid_inv hw hi1 ⟨hg, hh.2⟩ hab hd h3).1

theorem sparse_inv {w} (hw : Width w) (hw0 : 0 < w) {s t : St w} {i : Nat} {l : Line w} {c p : Nat}
    {wt : Bool} (hs : Inv s) (hh : Holds s i l c p) (hd : l.bits.dirty = 0#w)
    (ht : sparse s i l c p wt = some t) : Inv t := by
  simp only [sparse, Option.bind_eq_bind, Option.bind_eq_some_iff, clearAll_eq hw hw0] at ht
  obtain ⟨s1, h1, l1, h2, x, h3, h4⟩ := ht
  cases h3
  obtain ⟨hi1, l', hg, hd'⟩ := setInvalid_inv hw hs hh ⟨Nat.zero_le _, by omega⟩
    (by intro j hj; simp [hd] at hj) h1
  rw [hg] at h2
  cases h2
  rw [hd] at hd'
  cases h4
  have : { l1 with bits := { l1.bits with dirty := (0#w, false).1 } } = l1 := by
    cases l1 with | mk bits owner => cases bits; simp_all
  rw [this]
  have h5 : s1.lines.set i l1 = s1.lines := by
    apply List.ext_getElem?
    intro j
    rw [List.getElem?_set]
    have := lt_of_get hg
    split <;> simp_all
  simp only [St.put, h5]
  exact hi1

theorem drop_inv {w} (hw : Width w) (hw0 : 0 < w) {s t : St w} {i : Nat} {l : Line w} {c p : Nat}
    {wt : Bool} (hs : Inv s) (hh : Holds s i l c p) (hc : s.added c = false)
    (ht : sparse s i l c p wt = some t) : Inv t := by
  obtain ⟨hi, ho⟩ := hh
  have hlt := lt_of_get hi
  simp only [sparse, Option.bind_eq_bind, Option.bind_eq_some_iff, clearAll_eq hw hw0] at ht
  obtain ⟨s1, h1, l1, h2, x, h3, h4⟩ := ht
  cases h3
  obtain ⟨v, hv, hbit⟩ := clearValid_eq hw (a := 0) (b := w - 1) ⟨Nat.zero_le _, by omega⟩ l.bits
  have hv0 : v = 0#w := by
    apply Classical.byContradiction
    intro hn
    obtain ⟨j, hj, hx⟩ := (ne_zero_iff v).1 hn
    exact ((hbit j hj).1 hx).1 ⟨Nat.zero_le _, by omega⟩
  subst hv0
  simp only [setInvalid, hv, Option.bind_eq_bind, Option.bind_some] at h1
  rw [if_neg (by simp)] at h1
  have key : ∀ o : Option (Nat × Nat), (o = none ∨ o = some (c, p)) →
      ∀ (f1 f2 f3 f4 : Nat → Int) (g1 g2 g3 g4 g5 : Nat → Nat → Int) (a : Nat → Bool),
      a = s.added →
      (∀ j, j ≠ c → f1 j = s.cached j ∧ f2 j = s.dirty j ∧ f3 j = s.skipped j ∧ f4 j = s.phantom j) →
      (∀ j q, j ≠ c → g1 j q = s.pcached j q ∧ g2 j q = s.pdirty j q ∧ g3 j q = s.pskipped j q ∧
        g4 j q = s.pphantom j q ∧ g5 j q = s.carried j q) →
      Inv ⟨s.lines.set i ⟨⟨0#w, 0#w⟩, o, false⟩, f1, f2, g1, g2, a, f3, f4, g3, g4, g5⟩ := by
    intro o ho' f1 f2 f3 f4 g1 g2 g3 g4 g5 a ha hf hg
    refine inv_put (l' := ⟨⟨0#w, 0#w⟩, o, false⟩) hs hi rfl ha
      ⟨by intro j hj; simp at hj, fun _ => rfl⟩ ?_ ?_ ?_ ?_
    · intro c' hc'
      have hne : c' ≠ c := by rintro rfl; simp [hc] at hc'
      have := hf c' hne
      simp [qdc, ho]; grind
    · intro c' q hc'
      have hne : c' ≠ c := by rintro rfl; simp [hc] at hc'
      have := hg c' q hne
      simp [qd, ho]; grind
    · intro c' hc'
      have hne : c' ≠ c := by rintro rfl; simp [hc] at hc'
      have := hf c' hne
      simp [qvc, ho]; grind
    · intro c' q hc'
      have hne : c' ≠ c := by rintro rfl; simp [hc] at hc'
      have := hg c' q hne
      simp [qv, ho]; grind
  have hset : ∀ (x y : Line w), (s.lines.set i x).set i y = s.lines.set i y := by
    intro x y; simp
  split at h1
  · cases h1
    simp [St.put, hlt] at h2
    subst h2
    cases h4
    simp only [St.put, hset, ho]
    exact key _ (Or.inr rfl) _ _ _ _ _ _ _ _ _ _ rfl
      (fun j hj => by simp [bump, hj]) (fun j q hj => by simp [bump2, hj])
  · split at h1
    · cases h1
      simp [St.put, hlt] at h2
      subst h2
      cases h4
      simp only [St.put, hset]
      exact key _ (Or.inl rfl) _ _ _ _ _ _ _ _ _ _ rfl
        (fun j hj => by simp) (fun j q hj => by simp)
    · cases h1
      simp [St.put, hlt] at h2
      subst h2
      cases h4
      simp only [St.put, hset]
      exact key _ (Or.inl rfl) _ _ _ _ _ _ _ _ _ _ rfl
        (fun j hj => by simp [bump, hj]) (fun j q hj => by simp [bump2, hj])

theorem add_inv {w} {s : St w} {c : Nat} (hs : Inv s)
    (h : ∀ (i : Nat) (l : Line w) p, s.lines[i]? = some l → l.owner ≠ some (c, p)) : Inv (addCore s c) := by
  have h' : ∀ l ∈ s.lines, ∀ p, l.owner ≠ some (c, p) := by
    intro l hl p
    obtain ⟨i, hi⟩ := List.mem_iff_getElem?.1 hl
    exact h i l p hi
  have h'' : ∀ l ∈ s.lines, l.owner.map (·.1) ≠ some c := by
    intro l hl
    cases ho : l.owner with
    | none => simp
    | some cp => intro hx; simp at hx; exact h' l hl cp.2 (by rw [ho, ← hx])
  have z1 : s.lines.countP (qdc c) = 0 := by
    rw [List.countP_eq_zero]; intro l hl; simp only [qdc, h'' l hl]; simp
  have z2 : ∀ p, s.lines.countP (qd c p) = 0 := by
    intro p; rw [List.countP_eq_zero]; intro l hl; simp [qd]; intro x; exact absurd x (h' l hl p)
  have z3 : s.lines.countP (qvc c) = 0 := by
    rw [List.countP_eq_zero]; intro l hl; simp only [qvc, h'' l hl]; simp
  have z4 : ∀ p, s.lines.countP (qv c p) = 0 := by
    intro p; rw [List.countP_eq_zero]; intro l hl; simp [qv]; intro x; exact absurd x (h' l hl p)
  constructor
  · exact hs.wf
  · intro j hj
    simp only [addCore] at hj ⊢
    by_cases hjc : j = c
    · subst hjc; simp [z1]
    · simp only [hjc, if_false] at hj ⊢; exact hs.dir j hj
  · intro j q hj
    simp only [addCore] at hj ⊢
    by_cases hjc : j = c
    · subst hjc; simp [z2]
    · simp only [hjc, if_false] at hj ⊢; exact hs.pdir j q hj
  · intro j hj
    simp only [addCore] at hj ⊢
    by_cases hjc : j = c
    · subst hjc; simp [z3]
    · simp only [hjc, if_false] at hj ⊢; exact hs.cach j hj
  · intro j q hj
    simp only [addCore] at hj ⊢
    by_cases hjc : j = c
    · subst hjc; simp [z4]
    · simp only [hjc, if_false] at hj ⊢; exact hs.pcach j q hj

theorem step_inv {w} (hw : Width w) (hw0 : 0 < w) {s t : St w} (hs : Inv s) {wa : Bool} (h : Step wa s t) : Inv t := by
  cases h with
  | map i l c p h1 h2 h3 => exact map_inv hs h1 h2
  | evict i l c p h1 _ h2 => exact evict_inv hw hw0 hs h1 h2
  | valid i l c p a b h1 h2 h3 => exact setValid_inv hw hs h1 h2 h3
  | dirty i l c p a b h1 h2 h3 h4 => exact setDirty_inv hw hs h1 h2 h3 h4
  | clean i l c p a b h1 h2 h3 => exact (setClean_inv hw hs h1 h2 h3).1
  | purge i l c p a b wt _ h1 h2 h3 => exact purge_inv hw hs h1 h2 h3
  | unmap i l c p wt _ h1 h2 h3 =>
    have hd := (hs.wf i l h1.1).1.dirty_zero h2
    exact (setInvalid_inv hw hs h1 ⟨Nat.zero_le _, by omega⟩ (by intro j hj; simp [hd] at hj) h3).1
  | release i l c p h1 h2 =>
    have hwf := hs.wf i l h1.1
    refine inv_put (l' := { l with fresh := false }) hs h1.1 rfl rfl hwf ?_ ?_ ?_ ?_ <;>
    intros <;> simp [St.put, qd, qdc, qv, qvc] <;> grind
  | repart i l c p q h1 _ h2 => exact repart_inv hw hw0 hs h1 h2
  | sparse i l c p wt _ h1 h2 h3 => exact sparse_inv hw hw0 hs h1 h2 h3
  | remove c =>
    refine ⟨hs.wf, ?_, ?_, ?_, ?_⟩
    · intro j hj; apply hs.dir j; simp only at hj; split at hj <;> simp_all
    · intro j q hj; apply hs.pdir j q; simp only at hj; split at hj <;> simp_all
    · intro j hj; apply hs.cach j; simp only at hj; split at hj <;> simp_all
    · intro j q hj; apply hs.pcach j q; simp only at hj; split at hj <;> simp_all
  | drop i l c p wt _ h1 h2 h3 => exact drop_inv hw hw0 hs h1 h2 h3
  | add c h1 => exact add_inv hs h1

/-- A rebuilt line is unmapped and empty, or mapped with all its valid sectors dirty, at least
one. -/
theorem rebuildLine_spec {w} (hw : Width w) (hw0 : 0 < w) {r : Stored w} {l : Line w}
    (h : rebuildLine r = some l) :
    (l = ⟨init w, none, false⟩) ∨ (∃ c, l.owner = some (c, 0) ∧ l.bits.dirty = l.bits.valid ∧ l.bits.valid ≠ 0#w) := by
  obtain ⟨k, hk⟩ : ∃ k, typeMask w 0 (w - 1) = some k := by
    have := clearAll_eq hw hw0 (0#w)
    simp only [clearBits] at this
    cases hm : typeMask w 0 (w - 1) with
    | none => simp [hm] at this
    | some k => exact ⟨k, rfl⟩
  have hkk : ∀ m : BitVec w, m &&& ~~~k = 0#w := by
    intro m
    have := clearAll_eq hw hw0 m
    simp only [clearBits, hk, Option.map_some, Option.some.injEq, Prod.mk.injEq] at this
    exact this.1
  have hkb : ∀ i, i < w → k.getLsbD i = true := by
    intro i hi
    have := congrArg (fun m : BitVec w => m.getLsbD i) (hkk (~~~ 0#w))
    simpa [hi] using this
  simp only [rebuildLine] at h
  split at h
  · cases h
  · rename_i hc
    simp only [Bool.not_eq_true', Bool.not_eq_false, check, decide_eq_true_eq] at hc
    have hv : (r.bits.valid &&& ((k &&& r.bits.dirty) ||| ~~~k)) = r.bits.dirty := by
      apply BitVec.eq_of_getLsbD_eq
      intro i hi
      have h1 := congrArg (fun m : BitVec w => m.getLsbD i) hc
      have h2 := hkb i hi
      simp [hi] at h1
      simp [hi, h2]
      cases r.bits.valid.getLsbD i <;> cases r.bits.dirty.getLsbD i <;> simp_all
    simp only [clearValidIfClean, hk, Option.map_some, Option.bind_eq_bind, Option.bind_some, hv] at h
    split at h
    · rename_i c h1 h2
      cases h
      refine Or.inr ⟨c, rfl, rfl, ?_⟩
      simpa using h1
    · cases h; exact Or.inl rfl

theorem init_inv {w} (hw : Width w) (hw0 : 0 < w) {s : St w} (h : Init s) : Inv s := by
  cases h with
  | mk rs lines added h1 h2 =>
    have hl : ∀ l ∈ lines, (l = ⟨init w, none, false⟩) ∨
        (∃ c, l.owner = some (c, 0) ∧ l.bits.dirty = l.bits.valid ∧ l.bits.valid ≠ 0#w) := by
      have main : ∀ (rs : List (Stored w)) (lines : List (Line w)), rs.mapM rebuildLine = some lines →
          ∀ l ∈ lines, ∃ r, rebuildLine r = some l := by
        intro rs
        induction rs with
        | nil => intro lines h l hl; simp at h; subst h; simp at hl
        | cons r rs ih =>
          intro lines h l hl
          simp only [List.mapM_cons, Option.bind_eq_bind, Option.bind_eq_some_iff] at h
          obtain ⟨x, hx, ys, hys, h3⟩ := h
          cases h3
          rcases List.mem_cons.1 hl with rfl | h4
          · exact ⟨r, hx⟩
          · exact ih ys hys l h4
      intro l hl
      obtain ⟨r, hr⟩ := main rs lines h1 l hl
      exact rebuildLine_spec hw hw0 hr
    have cnt : ∀ (q q' : Line w → Bool), (∀ l ∈ lines, q l = q' l) → lines.countP q = lines.countP q' := by
      intro q q' h
      exact List.countP_congr (fun l hl => by rw [h l hl])
    have z : ∀ (q : Line w → Bool), (∀ l ∈ lines, q l = false) → lines.countP q = 0 := by
      intro q h
      rw [List.countP_eq_zero]
      intro l hl
      rw [h l hl]; simp
    constructor
    · intro i l hi
      rcases hl l (List.mem_of_getElem? hi) with rfl | ⟨c, h3, h4, h5⟩
      · exact ⟨by intro j hj; simp [init] at hj, fun _ => rfl⟩
      · exact ⟨fun j hj => by rw [← h4]; exact hj, fun h => by simp [h3] at h⟩
    · intro c _
      simp only [rebuilt]
      rw [cnt (fun l => l.owner == some (c, 0)) (qdc c)]
      intro l h
      rcases hl l h with rfl | ⟨c', h3, h4, h5⟩
      · simp [qdc]
      · simp [qdc, h3, h4, h5]; by_cases h6 : c' = c <;> simp [h6]
    · intro c p _
      simp only [rebuilt]
      split
      · rename_i hp; subst hp
        rw [cnt (fun l => l.owner == some (c, 0)) (qd c 0)]
        intro l h
        rcases hl l h with rfl | ⟨c', h3, h4, h5⟩
        · simp [qd]
        · simp [qd, h3, h4, h5]; by_cases h6 : c' = c <;> simp [h6]
      · rename_i hp
        rw [z (qd c p)]; · rfl
        intro l h
        rcases hl l h with rfl | ⟨c', h3, h4, h5⟩
        · simp [qd]
        · simp [qd, h3]; intro _ h6; exact absurd h6.symm hp
    · intro c _
      simp only [rebuilt, Int.add_zero, Int.sub_zero]
      rw [cnt (fun l => l.owner == some (c, 0)) (qvc c)]
      intro l h
      rcases hl l h with rfl | ⟨c', h3, h4, h5⟩
      · simp [qvc]
      · simp [qvc, h3, h5]; by_cases h6 : c' = c <;> simp [h6]
    · intro c p _
      simp only [rebuilt, Int.add_zero, Int.sub_zero]
      split
      · rename_i hp; subst hp
        rw [cnt (fun l => l.owner == some (c, 0)) (qv c 0)]
        intro l h
        rcases hl l h with rfl | ⟨c', h3, h4, h5⟩
        · simp [qv]
        · simp [qv, h3, h5]; by_cases h6 : c' = c <;> simp [h6]
      · rename_i hp
        rw [z (qv c p)]; · rfl
        intro l h
        rcases hl l h with rfl | ⟨c', h3, h4, h5⟩
        · simp [qv]
        · simp [qv, h3]; intro _ h6; exact absurd h6.symm hp

/-- No event that the counters do not follow has happened, and mapped lines that are not being
filled have a valid sector. -/
structure QInv {w} (s : St w) : Prop where
  val : ∀ (i : Nat) (l : Line w), s.lines[i]? = some l → ∀ o, l.owner = some o → l.fresh = false →
    l.bits.valid ≠ 0#w
  h1 : ∀ c, s.skipped c = 0 ∧ s.phantom c = 0
  h2 : ∀ c p, s.pskipped c p = 0 ∧ s.pphantom c p = 0 ∧ s.carried c p = 0

theorem qinv_put {w} {s t : St w} {i : Nat} {l' : Line w} (hs : QInv s)
    (ht : t.lines = s.lines.set i l')
    (hv : ∀ o, l'.owner = some o → l'.fresh = false → l'.bits.valid ≠ 0#w)
    (h1 : t.skipped = s.skipped) (h2 : t.phantom = s.phantom) (h3 : t.pskipped = s.pskipped)
    (h4 : t.pphantom = s.pphantom) (h5 : t.carried = s.carried) : QInv t := by
  refine ⟨?_, by rw [h1, h2]; exact hs.h1, by rw [h3, h4, h5]; exact hs.h2⟩
  intro j x hx
  rw [ht, List.getElem?_set] at hx
  by_cases hij : i = j
  · rw [if_pos hij] at hx
    split at hx
    · cases hx; exact hv
    · cases hx
  · rw [if_neg hij] at hx
    exact hs.val j x hx

theorem setInvalid_q {w} (hw : Width w) {s t : St w} {i : Nat} {l : Line w} {c p a b : Nat}
    (hs : QInv s) (hab : InLine w a b) (ht : setInvalid s i l c p a b false = some t) : QInv t := by
  obtain ⟨v, hv, hbit⟩ := clearValid_eq hw hab l.bits
  simp only [setInvalid, hv, Option.bind_eq_bind, Option.bind_some, Bool.false_eq_true, if_false] at ht
  split at ht
  · rename_i hv
    split at ht
    · cases ht
    · cases ht
      exact qinv_put hs rfl (fun _ _ _ => by simpa using hv) rfl rfl rfl rfl rfl
  · split at ht <;> cases ht <;> exact qinv_put hs rfl (fun _ h _ => by cases h) rfl rfl rfl rfl rfl

theorem setClean_q {w} (hw : Width w) {s t : St w} {i : Nat} {l : Line w} {c p a b : Nat}
    (hs : QInv s) (hi : s.lines[i]? = some l) (hab : InLine w a b)
    (ht : setClean s i l c p a b = some t) : QInv t := by
  obtain ⟨d, ch, hd, hc0, hc1, hbit⟩ := clearDirty_eq hw hab l.bits
  simp only [setClean, hd, Option.bind_eq_bind, Option.bind_some] at ht
  have := hs.val i l hi
  split at ht
  · split at ht <;> cases ht <;> exact qinv_put hs rfl this rfl rfl rfl rfl rfl
  · cases ht; exact qinv_put hs rfl this rfl rfl rfl rfl rfl

theorem put_q {w} {s : St w} {i : Nat} {l : Line w} (hs : QInv s) (h : s.lines[i]? = some l)
    (b : LineBits w) (hb : b.valid = l.bits.valid) : QInv (s.put i { l with bits := b }) :=
  qinv_put hs rfl (fun o ho hf => by rw [hb]; exact hs.val i l h o ho hf) rfl rfl rfl rfl rfl

theorem step_q {w} (hw : Width w) (hw0 : 0 < w) {s t : St w} (hs : QInv s) (h : Step false s t) : QInv t := by
  cases h with
  | map i l c p h1 h2 h3 =>
    exact qinv_put hs rfl (fun _ _ h => by cases h) rfl rfl rfl rfl rfl
  | evict i l c p h1 h2 h3 =>
    have hne := hs.val i l h1.1 _ h1.2 h2
    simp only [evict, testAny hw hw0, clearAll_eq hw hw0, Option.bind_eq_bind, Option.bind_some] at h3
    split at h3
    · cases h3
    · cases h3
      refine qinv_put hs rfl (fun _ h _ => by cases h) rfl ?_ rfl ?_ rfl
      · funext j; simp [bump, hne]
      · funext j q; simp [bump2, hne]
  | valid i l c p a b h1 h2 h3 =>
    obtain ⟨v, hv, hne, hbit⟩ := setValid_eq hw h2 l.bits
    simp only [setValid, hv, Option.bind_eq_bind, Option.bind_some] at h3
    split at h3 <;> cases h3 <;> exact qinv_put hs rfl (fun _ _ _ => hne) rfl rfl rfl rfl rfl
  | dirty i l c p a b h1 h2 h3 h4 =>
    obtain ⟨d, ch, hd, _⟩ := setDirty_eq hw h2 l.bits
    simp only [setDirty, hd, Option.bind_eq_bind, Option.bind_some] at h4
    have := hs.val i l h1.1
    split at h4
    · split at h4 <;> cases h4 <;> exact qinv_put hs rfl this rfl rfl rfl rfl rfl
    · cases h4; exact qinv_put hs rfl this rfl rfl rfl rfl rfl
  | clean i l c p a b h1 h2 h3 => exact setClean_q hw hs h1.1 h2 h3
  | purge i l c p a b wt hwt h1 h2 h3 =>
    have : wt = false := by cases wt <;> simp_all
    subst this
    simp only [purge, Option.bind_eq_bind, Option.bind_eq_some_iff] at h3
    obtain ⟨s1, h4, l1, h5, h6⟩ := h3
    exact setInvalid_q hw (setClean_q hw hs h1.1 h2 h4) h2 h6
  | unmap i l c p wt hwt h1 h2 h3 =>
    have : wt = false := by cases wt <;> simp_all
    subst this
    exact setInvalid_q hw hs ⟨Nat.zero_le _, by omega⟩ h3
  | release i l c p h1 h2 =>
    exact qinv_put hs rfl (fun _ _ _ => h2) rfl rfl rfl rfl rfl
  | repart i l c p q h1 h2 h3 =>
    have hne := hs.val i l h1.1 _ h1.2 h2
    simp only [repart, testAny hw hw0, Option.bind_eq_bind, Option.bind_some] at h3
    split at h3
    · cases h3; exact hs
    · cases h3
      refine qinv_put hs rfl (fun _ _ _ => hne) rfl rfl rfl rfl ?_
      funext j q'; simp [hne]
  | sparse i l c p wt hwt h1 h2 h3 =>
    have : wt = false := by cases wt <;> simp_all
    subst this
    simp only [sparse, Option.bind_eq_bind, Option.bind_eq_some_iff, clearAll_eq hw hw0] at h3
    obtain ⟨s1, h4, l1, h5, x, h6, h7⟩ := h3
    cases h6
    cases h7
    exact put_q (setInvalid_q hw hs ⟨Nat.zero_le _, by omega⟩ h4) h5 _ rfl
  | remove c => exact ⟨hs.val, hs.h1, hs.h2⟩
  | drop i l c p wt hwt h1 h2 h3 =>
    have : wt = false := by cases wt <;> simp_all
    subst this
    simp only [sparse, Option.bind_eq_bind, Option.bind_eq_some_iff, clearAll_eq hw hw0] at h3
    obtain ⟨s1, h4, l1, h5, x, h6, h7⟩ := h3
    cases h6
    cases h7
    exact put_q (setInvalid_q hw hs ⟨Nat.zero_le _, by omega⟩ h4) h5 _ rfl
  | add c h1 =>
    refine ⟨hs.val, fun j => ?_, fun j p => ?_⟩
    · have := hs.h1 j
      simp only [addCore]; split <;> simp_all
    · have := hs.h2 j p
      simp only [addCore]; split <;> simp_all

theorem init_q {w} (hw : Width w) (hw0 : 0 < w) {s : St w} (h : Init s) : QInv s := by
  cases h with
  | mk rs lines added h1 h2 =>
    refine ⟨?_, fun _ => ⟨rfl, rfl⟩, fun _ _ => ⟨rfl, rfl, rfl⟩⟩
    have main : ∀ (rs : List (Stored w)) (lines : List (Line w)), rs.mapM rebuildLine = some lines →
        ∀ l ∈ lines, ∃ r, rebuildLine r = some l := by
      intro rs
      induction rs with
      | nil => intro lines h l hl; simp at h; subst h; simp at hl
      | cons r rs ih =>
        intro lines h l hl
        simp only [List.mapM_cons, Option.bind_eq_bind, Option.bind_eq_some_iff] at h
        obtain ⟨x, hx, ys, hys, h3⟩ := h
        cases h3
        rcases List.mem_cons.1 hl with rfl | h4
        · exact ⟨r, hx⟩
        · exact ih ys hys l h4
    intro i l hi o ho _
    obtain ⟨r, hr⟩ := main rs lines h1 l (List.mem_of_getElem? hi)
    rcases rebuildLine_spec hw hw0 hr with rfl | ⟨c, h3, h4, h5⟩
    · cases ho
    · exact h5

end Verif.Account
