import Verif.Model.Recovery
import Verif.Lemma.Bits
import Verif.Props.Collision
import Verif.Props.Parallelize
import Mathlib.Data.List.Nodup
import Mathlib.Logic.Basic
import Mathlib.Data.List.Perm.Basic

/-! Property C35: recovery keeps exactly the lines with dirty data, with exactly their dirty sectors,
returns all others to the free pool, and refuses inconsistent metadata. -/

namespace Verif.Recovery

open Verif.Bits Verif.Collision Verif.Parallelize

/-! ### Specification -/

/-- Line `c` holds data of a core that is only in the cache. -/
def Kept {w : Nat} (d : Disk w) (c : Nat) : Prop :=
  (d.core c).1 < 4096 ∧ ∃ i, i < w ∧ (d.bits c).dirty.getLsbD i = true

/-- Line `c` is inconsistent: a sector is dirty but not valid, the core id is not one, or it holds dirty
data of a core that is not configured. -/
def Inconsistent {w : Nat} (d : Disk w) (valid : Nat → Bool) (c : Nat) : Prop :=
  (∃ i, i < w ∧ (d.bits c).dirty.getLsbD i = true ∧ (d.bits c).valid.getLsbD i = false) ∨
  4096 < (d.core c).1 ∨ (Kept d c ∧ valid (d.core c).1 = false)

/-- No two lines to be kept hold the same core line. -/
def Distinct {w : Nat} (d : Disk w) (N : Nat) : Prop :=
  ∀ c c', c < N → c' < N → Kept d c → Kept d c' → d.core c = d.core c' → c = c'

/-! ### One line -/

theorem fullMask {w : Nat} (hw : Width w) : typeMask w 0 (w - 1) = some (BitVec.allOnes w) := by
  have h0 : 0 < w := by rcases hw with h | h | h | h | h <;> omega
  obtain ⟨m, hm, hb⟩ := typeMask_bit hw (Nat.zero_le (w - 1)) (by omega)
  rw [hm]
  congr 1
  apply BitVec.eq_of_getLsbD_eq
  intro i hi
  rw [hb i hi]
  simp [hi]
  omega

theorem initBits_eq {w : Nat} (hw : Width w) (l : LineBits w) : initBits l = some ⟨0#w, 0#w⟩ := by
  simp [initBits, clearBits, fullMask hw]

theorem check_iff {w : Nat} (l : LineBits w) : Bits.check l = false ↔
    ∃ i, i < w ∧ l.dirty.getLsbD i = true ∧ l.valid.getLsbD i = false := by
  unfold Bits.check
  rw [decide_eq_false_iff_not]
  have := ne_zero_iff (l.dirty &&& ~~~l.valid)
  constructor
  · intro h
    obtain ⟨i, hi, h⟩ := this.1 h
    exact ⟨i, hi, by simpa [hi] using h⟩
  · rintro ⟨i, hi, h1, h2⟩
    exact this.2 ⟨i, hi, by rw [BitVec.getLsbD_and, BitVec.getLsbD_not, h1, h2]; simp [hi]⟩

theorem clearValid_eq {w : Nat} (hw : Width w) (l : LineBits w) (hc : Bits.check l = true) :
    clearValidIfClean l 0 (w - 1) = some (⟨l.dirty, l.dirty⟩, decide (l.dirty ≠ 0#w)) := by
  have h : l.valid &&& l.dirty = l.dirty := by
    apply BitVec.eq_of_getLsbD_eq
    intro i hi
    simp only [BitVec.getLsbD_and]
    cases hd : l.dirty.getLsbD i
    · simp
    · cases hv : l.valid.getLsbD i
      · have := (check_iff l).2 ⟨i, hi, hd, hv⟩
        rw [hc] at this
        cases this
      · rfl
  simp [clearValidIfClean, fullMask hw, h]

/-- State after keeping line `c` in shard `i`. -/
def keepState {w : Nat} (s : State w) (i c : Nat) (k : Key) (b : BitVec w) : State w :=
  { s with
    table := add s.table k (hashFunc s.table k) c
    bits := upd s.bits c ⟨b, b⟩
    part := upd s.part c 0
    dirtyL := upd s.dirtyL (c % 32) (c :: s.dirtyL (c % 32))
    shard := upd s.shard i { s.shard i with
      todo := (s.shard i).todo.tail
      lines := upd (s.shard i).lines k.1 ((s.shard i).lines k.1 + 1) } }

/-- State after freeing line `c` in shard `i`. -/
def freeState {w : Nat} (s : State w) (i c : Nat) : State w :=
  { s with
    table := { s.table with core := upd s.table.core c noCore }
    bits := upd s.bits c ⟨0#w, 0#w⟩
    part := upd s.part c 34
    freeL := upd s.freeL (c % 32) (c :: s.freeL (c % 32))
    shard := upd s.shard i { s.shard i with
      todo := (s.shard i).todo.tail
      free := (s.shard i).free + 1 } }

theorem line_eq {w : Nat} (hw : Width w) (d : Disk w) (valid : Nat → Bool) (s : State w) (i c : Nat)
    (hb : s.bits c = d.bits c) (hk : s.table.core c = d.core c) :
    (Inconsistent d valid c ∧ line valid s i c = .refuse) ∨
    (¬ Inconsistent d valid c ∧ Kept d c ∧
      line valid s i c = .ok (keepState s i c (d.core c) (d.bits c).dirty)) ∨
    (¬ Inconsistent d valid c ∧ ¬ Kept d c ∧ line valid s i c = .ok (freeState s i c)) := by
  unfold line
  simp only [hb, hk]
  by_cases q1 : Bits.check (d.bits c) = false
  · exact .inl ⟨.inl ((check_iff _).1 q1), by simp [q1]⟩
  by_cases q2 : (d.core c).1 > 4096
  · exact .inl ⟨.inr (.inl q2), by simp [q2]⟩
  have q1' : Bits.check (d.bits c) = true := by simpa using q1
  rw [if_neg (by simp [q1, q2]), clearValid_eq hw _ q1']
  simp only
  have hz := ne_zero_iff (d.bits c).dirty
  by_cases q3 : (d.bits c).dirty = 0#w ∨ (d.core c).1 = 4096
  · have hnk : ¬ Kept d c := by
      rintro ⟨h1, h2⟩
      rcases q3 with q3 | q3
      · exact hz.2 h2 q3
      · omega
    rw [if_pos (by simpa using q3)]
    refine .inr (.inr ⟨?_, hnk, ?_⟩)
    · rintro (h | h | h)
      · exact q1 ((check_iff _).2 h)
      · exact q2 h
      · exact hnk h.1
    · simp only [reset, initBits_eq hw, setShard, freeState]
  · have q4 : (d.bits c).dirty ≠ 0#w ∧ (d.core c).1 ≠ 4096 := by
      exact ⟨fun h => q3 (.inl h), fun h => q3 (.inr h)⟩
    have hkp : Kept d c := ⟨by omega, hz.1 q4.1⟩
    rw [if_neg (by simpa using q4)]
    by_cases q5 : valid (d.core c).1 = false
    · exact .inl ⟨.inr (.inr ⟨hkp, q5⟩), by simp [q5]⟩
    · rw [if_neg q5]
      refine .inr (.inl ⟨?_, hkp, ?_⟩)
      · rintro (h | h | h)
        · exact q1 ((check_iff _).2 h)
        · exact q2 h
        · exact q5 h.2
      · have : testBits (d.bits c).dirty 0 (w - 1) false = some true := by
          simp [testBits, fullMask hw, q4.1]
        simp only [rebuild, this, setShard, keepState]
        simp

/-! ### Invariant -/

/-- Line `c` has not been handled yet. -/
def Pend {w : Nat} (s : State w) (c : Nat) : Prop := c ∈ (s.shard (c % 32)).todo

instance {w : Nat} (s : State w) (c : Nat) : Decidable (Pend s c) :=
  inferInstanceAs (Decidable (c ∈ (s.shard (c % 32)).todo))

/-- Invariant of the run of the shards. -/
structure Inv {w : Nat} (d : Disk w) (valid : Nat → Bool) (N : Nat) (s : State w) : Prop where
  nodup : ∀ i, i < 32 → (s.shard i).todo.Nodup
  own : ∀ i, i < 32 → ∀ c ∈ (s.shard i).todo, c < N ∧ c % 32 = i
  same : ∀ c, Pend s c → s.bits c = d.bits c ∧ s.table.core c = d.core c
  good : ∀ c, c < N → ¬ Pend s c → ¬ Inconsistent d valid c
  kept : ∀ c, c < N → ¬ Pend s c → Kept d c →
    s.bits c = ⟨(d.bits c).dirty, (d.bits c).dirty⟩ ∧ s.table.core c = d.core c ∧ s.part c = 0
  freed : ∀ c, c < N → ¬ Pend s c → ¬ Kept d c →
    s.bits c = ⟨0#w, 0#w⟩ ∧ s.table.core c = noCore ∧ s.part c = 34
  dMem : ∀ i c, c ∈ s.dirtyL i ↔ c < N ∧ c % 32 = i ∧ ¬ Pend s c ∧ Kept d c
  dNodup : ∀ i, (s.dirtyL i).Nodup
  fMem : ∀ i c, c ∈ s.freeL i ↔ c < N ∧ c % 32 = i ∧ ¬ Pend s c ∧ ¬ Kept d c
  fNodup : ∀ i, (s.freeL i).Nodup
  clean : ∀ i, s.cleanL i = []
  lines : ∀ i, i < 32 → ∀ k, (s.shard i).lines k = (s.dirtyL i).countP (fun c => (d.core c).1 == k)
  free : ∀ i, i < 32 → (s.shard i).free = (s.freeL i).length
  ok : ∀ i, i < 32 → (s.shard i).st = .ok → (s.shard i).todo = []
  err : ∀ i, i < 32 → (s.shard i).st = .err → ∃ c, c < N ∧ Inconsistent d valid c
  sumLines : ∀ k, s.sumLines k =
    ((List.range 32).map (fun i => if (s.shard i).st = .ok then (s.shard i).lines k else 0)).sum
  sumFree : s.sumFree =
    ((List.range 32).map (fun i => if (s.shard i).st = .ok then (s.shard i).free else 0)).sum

/-- A step in other words. -/
theorem step_cases {w : Nat} (hw : Width w) {d : Disk w} {valid : Nat → Bool} {N : Nat} {s t : State w}
    (h : Inv d valid N s) (st : Step valid s t) :
    (∃ i c, i < 32 ∧ (s.shard i).st = .run ∧ (∃ r, (s.shard i).todo = c :: r) ∧ c % 32 = i ∧ c < N ∧
      ¬ Inconsistent d valid c ∧ Kept d c ∧ t = keepState s i c (d.core c) (d.bits c).dirty) ∨
    (∃ i c, i < 32 ∧ (s.shard i).st = .run ∧ (∃ r, (s.shard i).todo = c :: r) ∧ c % 32 = i ∧ c < N ∧
      ¬ Inconsistent d valid c ∧ ¬ Kept d c ∧ t = freeState s i c) ∨
    (∃ i c, i < 32 ∧ (s.shard i).st = .run ∧ c < N ∧ Inconsistent d valid c ∧
      t = setShard s i { s.shard i with st := .err }) ∨
    (∃ i, i < 32 ∧ (s.shard i).st = .run ∧ (s.shard i).todo = [] ∧
      t = { setShard s i { s.shard i with st := .ok } with
        sumLines := fun k => s.sumLines k + (s.shard i).lines k
        sumFree := s.sumFree + (s.shard i).free }) := by
  cases st with
  | next _ i c r hi hs htd hl =>
    have ho := h.own i hi c (by rw [htd]; simp)
    have hp : Pend s c := by unfold Pend; rw [ho.2, htd]; simp
    obtain ⟨e1, e2⟩ := h.same c hp
    rcases line_eq hw d valid s i c e1 e2 with q | q | q
    · rw [q.2] at hl; cases hl
    · rw [q.2.2] at hl
      cases hl
      exact .inl ⟨i, c, hi, hs, ⟨r, htd⟩, ho.2, ho.1, q.1, q.2.1, rfl⟩
    · rw [q.2.2] at hl
      cases hl
      exact .inr (.inl ⟨i, c, hi, hs, ⟨r, htd⟩, ho.2, ho.1, q.1, q.2.1, rfl⟩)
  | refuse i c r hi hs htd hl =>
    have ho := h.own i hi c (by rw [htd]; simp)
    have hp : Pend s c := by unfold Pend; rw [ho.2, htd]; simp
    obtain ⟨e1, e2⟩ := h.same c hp
    rcases line_eq hw d valid s i c e1 e2 with q | q | q
    · exact .inr (.inr (.inl ⟨i, c, hi, hs, ho.1, q.1, rfl⟩))
    · rw [q.2.2] at hl; cases hl
    · rw [q.2.2] at hl; cases hl
  | done i hi hs htd => exact .inr (.inr (.inr ⟨i, hi, hs, htd, rfl⟩))

theorem pend_keep {w : Nat} {s : State w} {c : Nat} {r : List Nat} {x : Shard} {sh : Nat → Shard}
    (htd : (s.shard (c % 32)).todo = c :: r) (hn : (c :: r).Nodup)
    (hsh : sh = upd s.shard (c % 32) x) (hx : x.todo = r) (c' : Nat) :
    c' ∈ (sh (c' % 32)).todo ↔ Pend s c' ∧ c' ≠ c := by
  subst hsh
  unfold Pend upd
  by_cases q : c' % 32 = c % 32
  · rw [if_pos q, hx, q, htd]
    simp at hn
    constructor
    · intro h
      exact ⟨by simp [h], fun e => hn.1 (e ▸ h)⟩
    · rintro ⟨h1, h2⟩
      simpa [h2] using h1
  · rw [if_neg q]
    constructor
    · intro h
      exact ⟨h, fun e => q (by rw [e])⟩
    · exact fun h => h.1

theorem sum_upd {f g : Nat → Nat} {i n a : Nat} (hi : i < n) (hg : ∀ j, j ≠ i → g j = f j)
    (hgi : g i = f i + a) :
    ((List.range n).map g).sum = ((List.range n).map f).sum + a := by
  induction n with
  | zero => omega
  | succ n ih =>
    rw [List.range_succ]
    simp only [List.map_append, List.map_cons, List.map_nil, List.sum_append, List.sum_cons,
      List.sum_nil]
    by_cases q : i = n
    · subst q
      have : (List.range i).map g = (List.range i).map f := by
        apply List.map_congr_left
        intro j hj
        have := List.mem_range.1 hj
        exact hg j (by omega)
      rw [this, hgi]
      omega
    · have := ih (by omega)
      rw [this, hg n (by omega)]
      omega

theorem sum_same {f g : Nat → Nat} {n : Nat} (hg : ∀ j, g j = f j) :
    ((List.range n).map g).sum = ((List.range n).map f).sum := by
  rw [funext hg]

theorem inv_keep {w : Nat} {d : Disk w} {valid : Nat → Bool} {N : Nat} {s : State w}
    (h : Inv d valid N s) {c : Nat} {r : List Nat} (hs : (s.shard (c % 32)).st = .run)
    (htd : (s.shard (c % 32)).todo = c :: r) (hc : c < N) (hg : ¬ Inconsistent d valid c)
    (hk : Kept d c) (hlt : N = s.table.lines) (hbk : 0 < s.table.buckets) :
    Inv d valid N (keepState s (c % 32) c (d.core c) (d.bits c).dirty) := by
  have h32 : c % 32 < 32 := Nat.mod_lt _ (by omega)
  have hn := h.nodup _ h32
  rw [htd] at hn
  have hp : ∀ c', Pend (keepState s (c % 32) c (d.core c) (d.bits c).dirty) c' ↔ Pend s c' ∧ c' ≠ c :=
    fun c' => pend_keep htd hn rfl (by simp [htd]) c'
  have hpc : Pend s c := by unfold Pend; rw [htd]; simp
  have hcore : (add s.table (d.core c) (hashFunc s.table (d.core c)) c).core =
      upd s.table.core c (d.core c) := by
    have := hash_lt s.table (d.core c) hbk
    unfold add
    rw [if_neg (by omega)]
  constructor
  case nodup =>
    intro i hi
    simp only [keepState, upd]
    by_cases q : i = c % 32
    · subst q; simp [htd]; simp at hn; exact hn.2
    · simp [q]; exact h.nodup i hi
  case own =>
    intro i hi c' hc'
    refine h.own i hi c' ?_
    simp only [keepState, upd] at hc'
    by_cases q : i = c % 32
    · subst q; simp [htd] at hc'; simp [htd, hc']
    · simpa [q] using hc'
  case same =>
    intro c' hc'
    obtain ⟨h1, h2⟩ := (hp c').1 hc'
    have := h.same c' h1
    simp only [keepState, hcore]
    simpa [upd, h2] using this
  case good =>
    intro c' h1 h2
    by_cases q : c' = c
    · exact q ▸ hg
    · exact h.good c' h1 (fun h => h2 ((hp c').2 ⟨h, q⟩))
  case kept =>
    intro c' h1 h2 h3
    simp only [keepState, hcore]
    by_cases q : c' = c
    · subst q; simp [upd]
    · have := h.kept c' h1 (fun h => h2 ((hp c').2 ⟨h, q⟩)) h3
      simpa [upd, q] using this
  case freed =>
    intro c' h1 h2 h3
    have q : c' ≠ c := fun e => h3 (e ▸ hk)
    have := h.freed c' h1 (fun h => h2 ((hp c').2 ⟨h, q⟩)) h3
    simp only [keepState, hcore]
    simpa [upd, q] using this
  case dMem =>
    intro i c'
    rw [hp]
    have := h.dMem i c'
    simp only [keepState, upd]
    by_cases q : i = c % 32
    · subst q
      simp only [if_true, List.mem_cons, this]
      by_cases q2 : c' = c
      · subst q2; simp [hc, hk]
      · simp [q2]
    · simp only [if_neg q, this]
      by_cases q2 : c' = c
      · subst q2; simp [eq_comm, q]
      · simp [q2]
  case dNodup =>
    intro i
    simp only [keepState, upd]
    by_cases q : i = c % 32
    · subst q
      simp only [if_true, List.nodup_cons]
      exact ⟨fun hm => ((h.dMem _ _).1 hm).2.2.1 hpc, h.dNodup _⟩
    · simp only [if_neg q]; exact h.dNodup i
  case fMem =>
    intro i c'
    rw [hp]
    have := h.fMem i c'
    simp only [keepState]
    rw [this]
    by_cases q2 : c' = c
    · subst q2; simp [hk]
    · simp [q2]
  case fNodup => exact h.fNodup
  case clean => exact h.clean
  case lines =>
    intro i hi k
    have := h.lines i hi k
    simp only [keepState, upd]
    by_cases q : i = c % 32
    · subst q
      simp only [if_true, List.countP_cons]
      by_cases q2 : k = (d.core c).1
      · subst q2
        have := h.lines _ hi (d.core c).1
        simp [this, upd]
      · have h3 : ((d.core c).1 == k) = false := by
          simp; exact fun e => q2 e.symm
        simp [upd, q2, h3, this]
    · simp only [if_neg q]; exact this
  case free =>
    intro i hi
    have := h.free i hi
    simp only [keepState, upd]
    by_cases q : i = c % 32
    · subst q; simp [this]
    · simp [q, this]
  case ok =>
    intro i hi
    simp only [keepState, upd]
    by_cases q : i = c % 32
    · subst q; simp [hs]
    · simp only [if_neg q]; exact h.ok i hi
  case err =>
    intro i hi
    simp only [keepState, upd]
    by_cases q : i = c % 32
    · subst q; simp [hs]
    · simp only [if_neg q]; exact h.err i hi
  case sumLines =>
    intro k
    have := h.sumLines k
    simp only [keepState]
    rw [this]
    apply sum_same
    intro j
    simp only [upd]
    by_cases q : j = c % 32
    · subst q; simp [hs]
    · simp [q]
  case sumFree =>
    have := h.sumFree
    simp only [keepState]
    rw [this]
    apply sum_same
    intro j
    simp only [upd]
    by_cases q : j = c % 32
    · subst q; simp [hs]
    · simp [q]

theorem inv_free {w : Nat} {d : Disk w} {valid : Nat → Bool} {N : Nat} {s : State w}
    (h : Inv d valid N s) {c : Nat} {r : List Nat} (hs : (s.shard (c % 32)).st = .run)
    (htd : (s.shard (c % 32)).todo = c :: r) (hc : c < N) (hg : ¬ Inconsistent d valid c)
    (hk : ¬ Kept d c) : Inv d valid N (freeState s (c % 32) c) := by
  have h32 : c % 32 < 32 := Nat.mod_lt _ (by omega)
  have hn := h.nodup _ h32
  rw [htd] at hn
  have hp : ∀ c', Pend (freeState s (c % 32) c) c' ↔ Pend s c' ∧ c' ≠ c :=
    fun c' => pend_keep htd hn rfl (by simp [htd]) c'
  have hpc : Pend s c := by unfold Pend; rw [htd]; simp
  constructor
  case nodup =>
    intro i hi
    simp only [freeState, upd]
    by_cases q : i = c % 32
    · subst q; simp [htd]; simp at hn; exact hn.2
    · simp [q]; exact h.nodup i hi
  case own =>
    intro i hi c' hc'
    refine h.own i hi c' ?_
    simp only [freeState, upd] at hc'
    by_cases q : i = c % 32
    · subst q; simp [htd] at hc'; simp [htd, hc']
    · simpa [q] using hc'
  case same =>
    intro c' hc'
    obtain ⟨h1, h2⟩ := (hp c').1 hc'
    have := h.same c' h1
    simp only [freeState]
    simpa [upd, h2] using this
  case good =>
    intro c' h1 h2
    by_cases q : c' = c
    · exact q ▸ hg
    · exact h.good c' h1 (fun h => h2 ((hp c').2 ⟨h, q⟩))
  case freed =>
    intro c' h1 h2 h3
    simp only [freeState]
    by_cases q : c' = c
    · subst q; simp [upd]
    · have := h.freed c' h1 (fun h => h2 ((hp c').2 ⟨h, q⟩)) h3
      simpa [upd, q] using this
  case kept =>
    intro c' h1 h2 h3
    have q : c' ≠ c := fun e => hk (e ▸ h3)
    have := h.kept c' h1 (fun h => h2 ((hp c').2 ⟨h, q⟩)) h3
    simp only [freeState]
    simpa [upd, q] using this
  case fMem =>
    intro i c'
    rw [hp]
    have := h.fMem i c'
    simp only [freeState, upd]
    by_cases q : i = c % 32
    · subst q
      simp only [if_true, List.mem_cons, this]
      by_cases q2 : c' = c
      · subst q2; simp [hc, hk]
      · simp [q2]
    · simp only [if_neg q, this]
      by_cases q2 : c' = c
      · subst q2; simp [eq_comm, q]
      · simp [q2]
  case fNodup =>
    intro i
    simp only [freeState, upd]
    by_cases q : i = c % 32
    · subst q
      simp only [if_true, List.nodup_cons]
      exact ⟨fun hm => ((h.fMem _ _).1 hm).2.2.1 hpc, h.fNodup _⟩
    · simp only [if_neg q]; exact h.fNodup i
  case dMem =>
    intro i c'
    rw [hp]
    have := h.dMem i c'
    simp only [freeState]
    rw [this]
    by_cases q2 : c' = c
    · subst q2; simp [hk]
    · simp [q2]
  case dNodup => exact h.dNodup
  case clean => exact h.clean
  case lines =>
    intro i hi k
    have := h.lines i hi k
    simp only [freeState, upd]
    by_cases q : i = c % 32
    · subst q; simp [this]
    · simp only [if_neg q]; exact this
  case free =>
    intro i hi
    have := h.free i hi
    simp only [freeState, upd]
    by_cases q : i = c % 32
    · subst q; simp [this]
    · simp [q, this]
  case ok =>
    intro i hi
    simp only [freeState, upd]
    by_cases q : i = c % 32
    · subst q; simp [hs]
    · simp only [if_neg q]; exact h.ok i hi
  case err =>
    intro i hi
    simp only [freeState, upd]
    by_cases q : i = c % 32
    · subst q; simp [hs]
    · simp only [if_neg q]; exact h.err i hi
  case sumLines =>
    intro k
    have := h.sumLines k
    simp only [freeState]
    rw [this]
    apply sum_same
    intro j
    simp only [upd]
    by_cases q : j = c % 32
    · subst q; simp [hs]
    · simp [q]
  case sumFree =>
    have := h.sumFree
    simp only [freeState]
    rw [this]
    apply sum_same
    intro j
    simp only [upd]
    by_cases q : j = c % 32
    · subst q; simp [hs]
    · simp [q]

/-- Changing the status of a shard only. -/
theorem inv_status {w : Nat} {d : Disk w} {valid : Nat → Bool} {N : Nat} {s t : State w}
    (h : Inv d valid N s) {i : Nat} {x : Status} (hi : i < 32)
    (ht : t.table = s.table ∧ t.bits = s.bits ∧ t.part = s.part ∧ t.freeL = s.freeL ∧
      t.cleanL = s.cleanL ∧ t.dirtyL = s.dirtyL ∧ t.shard = upd s.shard i { s.shard i with st := x })
    (hok : x = .ok → (s.shard i).todo = [])
    (herr : x = .err → ∃ c, c < N ∧ Inconsistent d valid c)
    (hl : ∀ k, t.sumLines k =
      ((List.range 32).map (fun i => if (t.shard i).st = .ok then (t.shard i).lines k else 0)).sum)
    (hf : t.sumFree =
      ((List.range 32).map (fun i => if (t.shard i).st = .ok then (t.shard i).free else 0)).sum) :
    Inv d valid N t := by
  obtain ⟨t1, t2, t3, t4, t5, t6, t7⟩ := ht
  have htd : ∀ j, (t.shard j).todo = (s.shard j).todo ∧ (t.shard j).lines = (s.shard j).lines ∧
      (t.shard j).free = (s.shard j).free := by
    intro j
    rw [t7]
    unfold upd
    by_cases q : j = i
    · subst q; simp
    · simp [q]
  have hst : ∀ j, (t.shard j).st = if j = i then x else (s.shard j).st := by
    intro j
    rw [t7]
    unfold upd
    by_cases q : j = i <;> simp [q]
  have hp : ∀ c, Pend t c ↔ Pend s c := by
    intro c
    unfold Pend
    rw [(htd _).1]
  constructor
  case nodup => intro j hj; rw [(htd j).1]; exact h.nodup j hj
  case own => intro j hj; rw [(htd j).1]; exact h.own j hj
  case same => intro c hc; rw [t1, t2]; exact h.same c ((hp c).1 hc)
  case good => intro c h1; rw [hp]; exact h.good c h1
  case kept => intro c h1; rw [hp, t1, t2, t3]; exact h.kept c h1
  case freed => intro c h1; rw [hp, t1, t2, t3]; exact h.freed c h1
  case dMem => intro j c; rw [hp, t6]; exact h.dMem j c
  case dNodup => rw [t6]; exact h.dNodup
  case fMem => intro j c; rw [hp, t4]; exact h.fMem j c
  case fNodup => rw [t4]; exact h.fNodup
  case clean => rw [t5]; exact h.clean
  case lines => intro j hj; rw [(htd j).2.1, t6]; exact h.lines j hj
  case free => intro j hj; rw [(htd j).2.2, t4]; exact h.free j hj
  case ok =>
    intro j hj
    rw [hst, (htd j).1]
    by_cases q : j = i
    · subst q; simpa using hok
    · simpa [q] using h.ok j hj
  case err =>
    intro j hj
    rw [hst]
    by_cases q : j = i
    · subst q; simpa using herr
    · simpa [q] using h.err j hj
  case sumLines => exact hl
  case sumFree => exact hf

theorem inv_step {w : Nat} (hw : Width w) {d : Disk w} {valid : Nat → Bool} {N : Nat} {s t : State w}
    (h : Inv d valid N s) (hN : s.table.lines = N ∧ 0 < s.table.buckets) (st : Step valid s t) :
    Inv d valid N t ∧ t.table.lines = N ∧ 0 < t.table.buckets := by
  rcases step_cases hw h st with ⟨i, c, hi, hs, ⟨r, htd⟩, rfl, hc, hg, hk, rfl⟩ |
    ⟨i, c, hi, hs, ⟨r, htd⟩, rfl, hc, hg, hk, rfl⟩ | ⟨i, c, hi, hs, hc, hbad, rfl⟩ |
    ⟨i, hi, hs, htd, rfl⟩
  · refine ⟨inv_keep h hs htd hc hg hk hN.1.symm hN.2, ?_⟩
    simp only [keepState, add]
    split <;> exact hN
  · exact ⟨inv_free h hs htd hc hg hk, hN⟩
  · refine ⟨inv_status h (x := .err) hi ⟨rfl, rfl, rfl, rfl, rfl, rfl, rfl⟩ (by simp)
      (fun _ => ⟨c, hc, hbad⟩) ?_ ?_, hN⟩
    · intro k
      have := h.sumLines k
      simp only [setShard]
      rw [this]
      apply sum_same
      intro j
      simp only [upd]
      by_cases q : j = i
      · subst q; simp [hs]
      · simp [q]
    · have := h.sumFree
      simp only [setShard]
      rw [this]
      apply sum_same
      intro j
      simp only [upd]
      by_cases q : j = i
      · subst q; simp [hs]
      · simp [q]
  · refine ⟨inv_status h (x := .ok) hi ⟨rfl, rfl, rfl, rfl, rfl, rfl, rfl⟩ (fun _ => htd) (by simp)
      ?_ ?_, hN⟩
    · intro k
      have := h.sumLines k
      simp only [setShard]
      rw [this]
      refine (sum_upd hi ?_ ?_).symm
      · intro j q; simp [upd, q]
      · simp [upd, hs]
    · have := h.sumFree
      simp only [setShard]
      rw [this]
      refine (sum_upd hi ?_ ?_).symm
      · intro j q; simp [upd, q]
      · simp [upd, hs]

theorem inv_start {w : Nat} (d : Disk w) (valid : Nat → Bool) (N H : Nat) (part : Nat → Nat) :
    Inv d valid N (start d N H part) := by
  have hm := stride_mem N 32 (by omega)
  have hp : ∀ c, Pend (start d N H part) c ↔ c < N := by
    intro c
    unfold Pend start
    simp only
    rw [hm (c % 32) c (Nat.mod_lt _ (by omega))]
    simp
  constructor
  case nodup => exact fun i hi => (stride_partition N 32 (by omega)).1 i hi
  case own => exact fun i hi c hc => (hm i c hi).1 hc
  case same =>
    intro c hc
    have := (hp c).1 hc
    simp [start, this]
  case good => intro c h1 h2; exact absurd ((hp c).2 h1) h2
  case kept => intro c h1 h2; exact absurd ((hp c).2 h1) h2
  case freed => intro c h1 h2; exact absurd ((hp c).2 h1) h2
  case dMem => intro i c; rw [hp]; simp [start]; grind
  case dNodup => intro i; simp [start]
  case fMem => intro i c; rw [hp]; simp [start]; grind
  case fNodup => intro i; simp [start]
  case clean => intro i; rfl
  case lines => intro i _ k; simp [start]
  case free => intro i _; simp [start]
  case ok => intro i _; simp [start]
  case err => intro i _; simp [start]
  case sumLines => intro k; simp [start]
  case sumFree => simp [start]

/-- States met while metadata `d` of `N` lines and `H` buckets is recovered, with any interleaving of the
shards and any contents of the partition ids before. -/
abbrev Reached {w : Nat} (d : Disk w) (valid : Nat → Bool) (N H : Nat) : State w → Prop :=
  Reach (fun s => ∃ part, s = start d N H part) (Step valid)

theorem reach_inv {w : Nat} (hw : Width w) {d : Disk w} {valid : Nat → Bool} {N H : Nat} (hH : 0 < H)
    {s : State w} (h : Reached d valid N H s) :
    Inv d valid N s ∧ s.table.lines = N ∧ 0 < s.table.buckets := by
  refine Reach.inv (P := fun s => Inv d valid N s ∧ s.table.lines = N ∧ 0 < s.table.buckets)
    ?_ ?_ s h
  · rintro s ⟨part, rfl⟩
    exact ⟨inv_start d valid N H part, rfl, hH⟩
  · intro s t hs st
    exact inv_step hw hs.1 hs.2 st

/-! ### The lookup table -/

/-- The table with the lines not handled yet taken as unmapped. -/
def shadow {w : Nat} (s : State w) : Table :=
  { s.table with core := fun c => if c ∈ (s.shard (c % 32)).todo then noCore else s.table.core c }

/-- The table found through `shadow` maps exactly the lines kept so far. -/
def TableInv {w : Nat} (d : Disk w) (N H : Nat) (s : State w) : Prop :=
  ∃ M, Run N H (shadow s) M ∧
    ∀ k c, M k = some c ↔ c < N ∧ ¬ Pend s c ∧ Kept d c ∧ d.core c = k

theorem table_step {w : Nat} (hw : Width w) {d : Disk w} {valid : Nat → Bool} {N H : Nat}
    {s t : State w} (h : Inv d valid N s) (hN : s.table.lines = N ∧ 0 < s.table.buckets)
    (hd : Distinct d N) (ht : TableInv d N H s) (st : Step valid s t) : TableInv d N H t := by
  obtain ⟨M, hr, hM⟩ := ht
  rcases step_cases hw h st with ⟨i, c, hi, hs, ⟨r, htd⟩, rfl, hc, hg, hk, rfl⟩ |
    ⟨i, c, hi, hs, ⟨r, htd⟩, rfl, hc, hg, hk, rfl⟩ | ⟨i, c, hi, hs, hc, hbad, rfl⟩ |
    ⟨i, hi, hs, htd, rfl⟩
  · have hn := h.nodup _ hi
    rw [htd] at hn
    have hp : ∀ c', Pend (keepState s (c % 32) c (d.core c) (d.bits c).dirty) c' ↔ Pend s c' ∧ c' ≠ c :=
      fun c' => pend_keep htd hn rfl (by simp [htd]) c'
    have hpc : Pend s c := by unfold Pend; rw [htd]; simp
    have hlt := hash_lt s.table (d.core c) hN.2
    refine ⟨fun k => if k = d.core c then some c else M k, ?_, ?_⟩
    · have hsh : shadow (keepState s (c % 32) c (d.core c) (d.bits c).dirty) =
          apply (shadow s) (.insert (d.core c) c) := by
        have hl1 : ¬ (¬ hashFunc s.table (d.core c) < s.table.buckets ∨ ¬ c < s.table.lines) := by omega
        have hc1 : (fun c' => if Pend (keepState s (c % 32) c (d.core c) (d.bits c).dirty) c' then noCore
              else (upd s.table.core c (d.core c)) c') =
            upd (fun c' => if Pend s c' then noCore else s.table.core c') c (d.core c) := by
          funext c'
          unfold upd
          by_cases q : c' = c
          · subst q
            simp [hp]
          · simp [hp, q]
        have hs1 : hashFunc (shadow s) (d.core c) = hashFunc s.table (d.core c) := rfl
        have e1 : (add s.table (d.core c) (hashFunc s.table (d.core c)) c) =
            { s.table with
              core := upd s.table.core c (d.core c)
              next := upd s.table.next c (s.table.hash (hashFunc s.table (d.core c)))
              prev := if s.table.hash (hashFunc s.table (d.core c)) ≠ s.table.lines then
                upd (upd s.table.prev c s.table.lines) (s.table.hash (hashFunc s.table (d.core c))) c
                else upd s.table.prev c s.table.lines
              hash := upd s.table.hash (hashFunc s.table (d.core c)) c } := by
          unfold add
          rw [if_neg hl1]
        have e2 : (shadow (keepState s (c % 32) c (d.core c) (d.bits c).dirty)) =
            { (add s.table (d.core c) (hashFunc s.table (d.core c)) c) with
              core := fun c' => if Pend (keepState s (c % 32) c (d.core c) (d.bits c).dirty) c' then noCore
                else (add s.table (d.core c) (hashFunc s.table (d.core c)) c).core c' } := by
          rfl
        have e3 : apply (shadow s) (.insert (d.core c) c) =
            { s.table with
              core := upd (fun c' => if Pend s c' then noCore else s.table.core c') c (d.core c)
              next := upd s.table.next c (s.table.hash (hashFunc s.table (d.core c)))
              prev := if s.table.hash (hashFunc s.table (d.core c)) ≠ s.table.lines then
                upd (upd s.table.prev c s.table.lines) (s.table.hash (hashFunc s.table (d.core c))) c
                else upd s.table.prev c s.table.lines
              hash := upd s.table.hash (hashFunc s.table (d.core c)) c } := by
          show add (shadow s) (d.core c) (hashFunc s.table (d.core c)) c = _
          unfold add
          have hl2 : ¬ (¬ hashFunc s.table (d.core c) < (shadow s).buckets ∨ ¬ c < (shadow s).lines) := hl1
          rw [if_neg hl2]
          rfl
        rw [e2, e1, e3]
        simp only
        rw [hc1]
      rw [hsh]
      refine .step _ M _ _ hr (.insert M _ (d.core c) c hc hk.1 ?_ ?_ (by simp) ?_)
      · cases hq : M (d.core c) with
        | none => rfl
        | some c' =>
          obtain ⟨h1, h2, h3, h4⟩ := (hM _ _).1 hq
          have := hd c' c h1 hc h3 hk h4
          exact absurd hpc (this ▸ h2)
      · intro k' hk'
        exact ((hM _ _).1 hk').2.1 hpc
      · intro k' hk'
        simp [hk']
    · intro k c'
      rw [hp]
      by_cases q : k = d.core c
      · subst q
        simp only [if_true, Option.some.injEq]
        constructor
        · rintro rfl
          exact ⟨hc, by simp, hk, rfl⟩
        · rintro ⟨h1, -, h3, h4⟩
          exact (hd c' c h1 hc h3 hk h4).symm
      · simp only [if_neg q, hM]
        have : c' = c → d.core c' ≠ k := fun e => by rw [e]; exact fun e => q e.symm
        grind
  · have hn := h.nodup _ hi
    rw [htd] at hn
    have hp : ∀ c', Pend (freeState s (c % 32) c) c' ↔ Pend s c' ∧ c' ≠ c :=
      fun c' => pend_keep htd hn rfl (by simp [htd]) c'
    have hpc : Pend s c := by unfold Pend; rw [htd]; simp
    refine ⟨M, ?_, ?_⟩
    · have hsh : shadow (freeState s (c % 32) c) = shadow s := by
        have hc1 : (fun c' => if Pend (freeState s (c % 32) c) c' then noCore
              else (upd s.table.core c noCore) c') =
            fun c' => if Pend s c' then noCore else s.table.core c' := by
          funext c'
          unfold upd
          by_cases q : c' = c
          · subst q
            simp [hp, hpc]
          · simp [hp, q]
        have : shadow (freeState s (c % 32) c) =
          { s.table with core := fun c' => if Pend (freeState s (c % 32) c) c' then noCore
              else (upd s.table.core c noCore) c' } := rfl
        rw [this, hc1]
        rfl
      rw [hsh]
      exact hr
    · intro k c'
      rw [hp, hM]
      have : c' = c → ¬ Kept d c' := fun e => e ▸ hk
      grind
  · have htd : ∀ j, (upd s.shard i { s.shard i with st := .err } j).todo = (s.shard j).todo := by
      intro j
      unfold upd
      split <;> simp [*]
    refine ⟨M, ?_, ?_⟩
    · have : shadow (setShard s i { s.shard i with st := .err }) = shadow s := by
        unfold shadow setShard
        simp only [htd]
      rw [this]; exact hr
    · intro k c'
      rw [hM]
      unfold Pend setShard
      simp only [htd]
  · have htd' : ∀ j, (upd s.shard i { s.shard i with st := .ok } j).todo = (s.shard j).todo := by
      intro j
      unfold upd
      split <;> simp [*]
    refine ⟨M, ?_, ?_⟩
    · have : shadow { setShard s i { s.shard i with st := .ok } with
          sumLines := fun k => s.sumLines k + (s.shard i).lines k
          sumFree := s.sumFree + (s.shard i).free } = shadow s := by
        unfold shadow setShard
        simp only [htd']
      rw [this]; exact hr
    · intro k c'
      rw [hM]
      unfold Pend setShard
      simp only [htd']

theorem table_start {w : Nat} (d : Disk w) (N H : Nat) (part : Nat → Nat) :
    TableInv d N H (start d N H part) := by
  have hm := stride_mem N 32 (by omega)
  refine ⟨fun _ => none, ?_, ?_⟩
  · have : shadow (start d N H part) = Collision.init N H := by
      unfold shadow start Collision.init
      simp only [Table.mk.injEq, true_and, and_true]
      funext c
      rw [if_congr (hm (c % 32) c (Nat.mod_lt _ (by omega))) rfl rfl]
      by_cases q : c < N <;> simp [q]
    rw [this]
    exact .init
  · intro k c
    have : Pend (start d N H part) c ↔ c < N := by
      unfold Pend start
      simp only
      rw [hm (c % 32) c (Nat.mod_lt _ (by omega))]
      simp
    rw [this]
    grind

theorem reach_table {w : Nat} (hw : Width w) {d : Disk w} {valid : Nat → Bool} {N H : Nat} (hH : 0 < H)
    (hd : Distinct d N) {s : State w} (h : Reached d valid N H s) : TableInv d N H s := by
  refine (Reach.inv (P := fun s => (Inv d valid N s ∧ s.table.lines = N ∧ 0 < s.table.buckets) ∧
    TableInv d N H s) ?_ ?_ s h).2
  · rintro s ⟨part, rfl⟩
    exact ⟨⟨inv_start d valid N H part, rfl, hH⟩, table_start d N H part⟩
  · intro s t hs st
    exact ⟨inv_step hw hs.1.1 hs.1.2 st, table_step hw hs.1.1 hs.1.2 hd hs.2 st⟩

/-! ### Theorems -/

/-- Recovery has ended with success. -/
def Succeeded {w : Nat} (s : State w) : Prop := ∀ i, i < 32 → (s.shard i).st = .ok

theorem not_pend {w : Nat} {d : Disk w} {valid : Nat → Bool} {N : Nat} {s : State w}
    (h : Inv d valid N s) (hs : Succeeded s) (c : Nat) : ¬ Pend s c := by
  have h32 : c % 32 < 32 := Nat.mod_lt _ (by omega)
  unfold Pend
  rw [h.ok _ h32 (hs _ h32)]
  simp

/-- C35: for all contents of the device, cache sizes and interleavings, when recovery succeeds, exactly
the lines that hold dirty data of a core keep their core line, and a sector of such a line is valid and
dirty iff it was dirty; every other line is unmapped, has no valid and no dirty sector and is in the free
partition. -/
theorem keeps_exactly_dirty {w : Nat} (hw : Width w) {d : Disk w} {valid : Nat → Bool} {N H : Nat}
    (hH : 0 < H) {s : State w} (h : Reached d valid N H s) (hs : Succeeded s) (c : Nat) (hc : c < N) :
    (Kept d c → s.table.core c = d.core c ∧ valid (d.core c).1 = true ∧ s.part c = 0 ∧
      ∀ i, i < w → (s.bits c).valid.getLsbD i = (d.bits c).dirty.getLsbD i ∧
        (s.bits c).dirty.getLsbD i = (d.bits c).dirty.getLsbD i) ∧
    (¬ Kept d c → s.table.core c = noCore ∧ s.part c = 34 ∧
      ∀ i, i < w → (s.bits c).valid.getLsbD i = false ∧ (s.bits c).dirty.getLsbD i = false) := by
  have hi := (reach_inv hw hH h).1
  have hp := not_pend hi hs c
  constructor
  · intro hk
    obtain ⟨h1, h2, h3⟩ := hi.kept c hc hp hk
    refine ⟨h2, ?_, h3, by simp [h1]⟩
    have hg := hi.good c hc hp
    cases hv : valid (d.core c).1
    · exact absurd (.inr (.inr ⟨hk, hv⟩)) hg
    · rfl
  · intro hk
    obtain ⟨h1, h2, h3⟩ := hi.freed c hc hp hk
    exact ⟨h2, h3, by simp [h1]⟩

/-- C35: when recovery succeeds, every line is in exactly one LRU list, once: a kept line in the dirty
list of the default partition, any other one in the free list, of its number. -/
theorem lists_exact {w : Nat} (hw : Width w) {d : Disk w} {valid : Nat → Bool} {N H : Nat}
    (hH : 0 < H) {s : State w} (h : Reached d valid N H s) (hs : Succeeded s) (i : Nat) :
    ((s.dirtyL i).Nodup ∧ ∀ c, c ∈ s.dirtyL i ↔ c < N ∧ c % 32 = i ∧ Kept d c) ∧
    ((s.freeL i).Nodup ∧ ∀ c, c ∈ s.freeL i ↔ c < N ∧ c % 32 = i ∧ ¬ Kept d c) ∧
    s.cleanL i = [] := by
  have hi := (reach_inv hw hH h).1
  have hp := not_pend hi hs
  refine ⟨⟨hi.dNodup i, fun c => ?_⟩, ⟨hi.fNodup i, fun c => ?_⟩, hi.clean i⟩
  · rw [hi.dMem]; simp [hp c]
  · rw [hi.fMem]; simp [hp c]

/-- Recovery keeps a line of core `k`, as a decision. -/
noncomputable def keptOf {w : Nat} (d : Disk w) (k c : Nat) : Bool :=
  @decide (Kept d c ∧ (d.core c).1 = k) (Classical.propDecidable _)

/-- Recovery frees a line, as a decision. -/
noncomputable def freedLine {w : Nat} (d : Disk w) (c : Nat) : Bool :=
  @decide (¬ Kept d c) (Classical.propDecidable _)

theorem sum_countP {l : Nat → List Nat} {N n : Nat} {p q : Nat → Bool}
    (hnd : ∀ i, (l i).Nodup) (hm : ∀ i c, i < n → (c ∈ l i ↔ c < N ∧ c % n = i ∧ q c = true))
    (h0 : 0 < n) :
    ((List.range n).map (fun i => (l i).countP p)).sum =
      (List.range N).countP (fun c => q c && p c) := by
  have hf : ((List.range n).flatMap l).countP p = ((List.range n).map (fun i => (l i).countP p)).sum := by
    rw [List.countP_flatMap]; rfl
  rw [← hf]
  have hperm : ((List.range n).flatMap l).Perm ((List.range N).filter q) := by
    rw [List.perm_ext_iff_of_nodup]
    · intro c
      simp only [List.mem_flatMap, List.mem_range, List.mem_filter]
      constructor
      · rintro ⟨i, hi, hc⟩
        have := (hm i c hi).1 hc
        exact ⟨this.1, this.2.2⟩
      · rintro ⟨h1, h2⟩
        have := Nat.mod_lt c h0
        exact ⟨c % n, this, (hm _ c this).2 ⟨h1, rfl, h2⟩⟩
    · rw [List.nodup_flatMap]
      refine ⟨fun i _ => hnd i, ?_⟩
      refine List.Pairwise.imp_of_mem ?_ (List.nodup_iff_pairwise_ne.1 (List.nodup_range (n := n)))
      intro a b ha hb hab c h1 h2
      have e1 := ((hm a c (List.mem_range.1 ha)).1 h1).2.1
      have e2 := ((hm b c (List.mem_range.1 hb)).1 h2).2.1
      exact hab (e1.symm.trans e2)
    · exact List.nodup_range.filter _
  rw [hperm.countP_eq, List.countP_filter]
  congr 1
  funext c
  exact Bool.and_comm _ _

/-- C35: the counters after success: for every core, the number of cached and of dirty lines is the
number of lines kept for it; the size of the free pool is the number of other lines. -/
theorem counters_exact {w : Nat} (hw : Width w) {d : Disk w} {valid : Nat → Bool} {N H : Nat}
    (hH : 0 < H) {s : State w} (h : Reached d valid N H s) (hs : Succeeded s) (cores : List Nat) :
    (∀ k, (finish s cores).lines k = (List.range N).countP (keptOf d k)) ∧
    (finish s cores).freeSize = (List.range N).countP (freedLine d) := by
  have hi := (reach_inv hw hH h).1
  have hl := lists_exact hw hH h hs
  classical
  constructor
  · intro k
    simp only [finish]
    rw [hi.sumLines k]
    have : (List.range 32).map (fun i => if (s.shard i).st = .ok then (s.shard i).lines k else 0) =
        (List.range 32).map (fun i => (s.dirtyL i).countP (fun c => (d.core c).1 == k)) := by
      apply List.map_congr_left
      intro i hm
      have hlt := List.mem_range.1 hm
      rw [if_pos (hs i hlt), hi.lines i hlt k]
    rw [this, sum_countP (N := N) (q := fun c => decide (Kept d c)) (fun i => (hl i).1.1)
      (fun i c _ => by rw [(hl i).1.2 c]; simp) (by omega)]
    congr 1
    funext c
    unfold keptOf
    simp only [Bool.decide_and]
    rfl
  · simp only [finish]
    rw [hi.sumFree]
    have : (List.range 32).map (fun i => if (s.shard i).st = .ok then (s.shard i).free else 0) =
        (List.range 32).map (fun i => (s.freeL i).countP (fun _ => true)) := by
      apply List.map_congr_left
      intro i hm
      have hlt := List.mem_range.1 hm
      rw [if_pos (hs i hlt), hi.free i hlt]
      simp
    rw [this, sum_countP (N := N) (q := fun c => decide (¬ Kept d c)) (fun i => (hl i).2.1.1)
      (fun i c _ => by rw [(hl i).2.1.2 c]; simp) (by omega)]
    congr 1
    funext c
    unfold freedLine
    simp

theorem sum_map_countP {w : Nat} (d : Disk w) (cores : List Nat) (hn : cores.Nodup) (l : List Nat)
    (hc : ∀ c ∈ l, Kept d c → (d.core c).1 ∈ cores) :
    (cores.map (fun k => l.countP (keptOf d k))).sum + l.countP (freedLine d) = l.length := by
  classical
  induction l with
  | nil => simp
  | cons c l ih =>
    have ih := ih (fun c hm => hc c (List.mem_cons_of_mem _ hm))
    simp only [List.countP_cons, List.length_cons]
    have hsum : ∀ f g : Nat → Nat, ∀ cs : List Nat,
        (cs.map (fun k => f k + g k)).sum = (cs.map f).sum + (cs.map g).sum := by
      intro f g cs
      induction cs with
      | nil => simp
      | cons a cs ih => simp only [List.map_cons, List.sum_cons, ih]; omega
    rw [hsum]
    by_cases hk : Kept d c
    · have h1 : freedLine d c = false := by simp [freedLine, hk]
      have h2 : ∀ cs : List Nat, cs.Nodup → (d.core c).1 ∈ cs →
          (cs.map (fun k => if keptOf d k c = true then 1 else 0)).sum = 1 := by
        have h3 : ∀ cs : List Nat, (d.core c).1 ∉ cs →
          (cs.map (fun k => if keptOf d k c = true then 1 else 0)).sum = 0 := by
          intro cs
          induction cs with
          | nil => simp
          | cons a cs ih =>
            intro hm
            simp only [List.mem_cons, not_or] at hm
            simp only [List.map_cons, List.sum_cons, ih hm.2]
            simp [keptOf, hm.1]
        intro cs hn hm
        induction cs with
        | nil => simp at hm
        | cons a cs ih =>
          simp only [List.nodup_cons] at hn
          simp only [List.map_cons, List.sum_cons]
          by_cases q : (d.core c).1 = a
          · rw [h3 cs (q ▸ hn.1)]
            simp [keptOf, hk, q]
          · rw [ih hn.2 (by simpa [q] using hm)]
            simp [keptOf, q]
      have := h2 cores hn (hc c (by simp) hk)
      rw [this, h1]
      simp
      omega
    · have h1 : freedLine d c = true := by simp [freedLine, hk]
      have h2 : ∀ cs : List Nat, (cs.map (fun k => if keptOf d k c = true then 1 else 0)).sum = 0 := by
        intro cs
        induction cs with
        | nil => simp
        | cons a cs ih =>
          simp only [List.map_cons, List.sum_cons, ih]
          simp [keptOf, hk]
      rw [h2, h1]
      simp
      omega

/-- C35: the sizes of the default partition and of the free pool add up to the cache, when every
configured core has been added. -/
theorem partition_sizes {w : Nat} (hw : Width w) {d : Disk w} {valid : Nat → Bool} {N H : Nat}
    (hH : 0 < H) {s : State w} (h : Reached d valid N H s) (hs : Succeeded s) (cores : List Nat)
    (hn : cores.Nodup) (hc : ∀ k, valid k = true → k ∈ cores) :
    (finish s cores).partSize + (finish s cores).freeSize = N := by
  have hcx := counters_exact hw hH h hs cores
  have hk := keeps_exactly_dirty hw hH h hs
  rw [hcx.2]
  have : (finish s cores).partSize = (cores.map (fun k => (List.range N).countP (keptOf d k))).sum := by
    have e : (finish s cores).partSize = (cores.map (finish s cores).lines).sum := rfl
    rw [e, funext hcx.1]
  rw [this, sum_map_countP d cores hn (List.range N)
    (fun c hm hkp => hc _ ((hk c (List.mem_range.1 hm)).1 hkp).2.1)]
  simp

/-- C35: recovery is refused iff some line is inconsistent, however the shards interleave. Missing: lines
that are inconsistent with each other are not refused, see `duplicate_accepted`. -/
theorem refused_iff_partial {w : Nat} (hw : Width w) {d : Disk w} {valid : Nat → Bool} {N H : Nat}
    (hH : 0 < H) {s : State w} (h : Reached d valid N H s)
    (hend : ∀ i, i < 32 → (s.shard i).st ≠ .run) :
    (∃ i, i < 32 ∧ (s.shard i).st = .err) ↔ ∃ c, c < N ∧ Inconsistent d valid c := by
  have hi := (reach_inv hw hH h).1
  constructor
  · rintro ⟨i, h1, h2⟩
    exact hi.err i h1 h2
  · rintro ⟨c, hc, hb⟩
    have h32 : c % 32 < 32 := Nat.mod_lt _ (by omega)
    refine ⟨c % 32, h32, ?_⟩
    cases q : (s.shard (c % 32)).st with
    | run => exact absurd q (hend _ h32)
    | err => rfl
    | ok =>
      refine absurd hb (hi.good c hc ?_)
      unfold Pend
      rw [hi.ok _ h32 q]
      simp

/-- C35: as long as a shard runs, it can go on: no assertion fails in it. -/
theorem no_assert {w : Nat} (hw : Width w) {d : Disk w} {valid : Nat → Bool} {N H : Nat}
    (hH : 0 < H) {s : State w} (h : Reached d valid N H s) (i : Nat) (hi : i < 32)
    (hr : (s.shard i).st = .run) :
    (∃ t, Step valid s t ∧ (t.shard i).todo.length + (if (t.shard i).st = .run then 1 else 0) <
      (s.shard i).todo.length + 1) ∧
    (∀ c r, (s.shard i).todo = c :: r → line valid s i c ≠ .bug) := by
  have hinv := (reach_inv hw hH h).1
  have hline : ∀ c r, (s.shard i).todo = c :: r → s.bits c = d.bits c ∧ s.table.core c = d.core c := by
    intro c r htd
    have ho := hinv.own i hi c (by rw [htd]; simp)
    exact hinv.same c (by unfold Pend; rw [ho.2, htd]; simp)
  constructor
  · cases htd : (s.shard i).todo with
    | nil =>
      exact ⟨_, .done s i hi hr htd, by simp [setShard, upd, htd]⟩
    | cons c r =>
      obtain ⟨e1, e2⟩ := hline c r htd
      rcases line_eq hw d valid s i c e1 e2 with q | q | q
      · exact ⟨_, .refuse s i c r hi hr htd q.2, by simp [setShard, upd, htd]⟩
      · exact ⟨_, .next s _ i c r hi hr htd q.2.2, by simp [keepState, upd, htd, hr]⟩
      · exact ⟨_, .next s _ i c r hi hr htd q.2.2, by simp [freeState, upd, htd, hr]⟩
  · intro c r htd
    obtain ⟨e1, e2⟩ := hline c r htd
    rcases line_eq hw d valid s i c e1 e2 with q | q | q
    · rw [q.2]; simp
    · rw [q.2.2]; simp
    · rw [q.2.2]; simp

/-- What is left to do. -/
def left {w : Nat} (s : State w) : Nat :=
  ((List.range 32).map (fun i =>
    (s.shard i).todo.length + (if (s.shard i).st = .run then 1 else 0))).sum

/-- C35: recovery ends: every step of a shard leaves less to do. -/
theorem step_decreases {w : Nat} (hw : Width w) {d : Disk w} {valid : Nat → Bool} {N H : Nat}
    (hH : 0 < H) {s t : State w} (h : Reached d valid N H s) (st : Step valid s t) :
    left t + 1 = left s := by
  have hinv := (reach_inv hw hH h).1
  unfold left
  rcases step_cases hw hinv st with ⟨i, c, hi, hs, ⟨r, htd⟩, hm, hc, hg, hk, rfl⟩ |
    ⟨i, c, hi, hs, ⟨r, htd⟩, hm, hc, hg, hk, rfl⟩ | ⟨i, c, hi, hs, hc, hbad, rfl⟩ |
    ⟨i, hi, hs, htd, rfl⟩
  · refine (sum_upd hi ?_ ?_).symm
    · intro j q; simp [keepState, upd, q]
    · simp [keepState, upd, htd, hs]
  · refine (sum_upd hi ?_ ?_).symm
    · intro j q; simp [freeState, upd, q]
    · simp [freeState, upd, htd, hs]
  · refine (sum_upd hi ?_ ?_).symm
    · intro j q; simp [setShard, upd, q]
    · simp [setShard, upd, hs]
  · refine (sum_upd hi ?_ ?_).symm
    · intro j q; simp [setShard, upd, q]
    · simp [setShard, upd, htd, hs]

/-- C35: when no core line is on two lines, after success every lookup finds the line kept for the core
line, and misses when there is none; no assertion of the table has failed. -/
theorem lookup_after {w : Nat} (hw : Width w) {d : Disk w} {valid : Nat → Bool} {N H : Nat}
    (hH : 0 < H) (hd : Distinct d N) {s : State w} (h : Reached d valid N H s) (hs : Succeeded s)
    (k : Key) :
    s.table.bug = false ∧
    ∃ r, lookup s.table k (N + 1) = some r ∧ ∀ c, r = some c ↔ c < N ∧ Kept d c ∧ d.core c = k := by
  have hi := (reach_inv hw hH h).1
  have hp := not_pend hi hs
  obtain ⟨M, hr, hM⟩ := reach_table hw hH hd h
  have hsh : shadow s = s.table := by
    unfold shadow
    have : (fun c => if c ∈ (s.shard (c % 32)).todo then noCore else s.table.core c) = s.table.core := by
      funext c
      exact if_neg (hp c)
    rw [this]
  rw [hsh] at hr
  refine ⟨Collision.no_assert hH hr, M k, lookup_exact hH hr k _ (by omega), ?_⟩
  intro c
  rw [hM]
  simp [hp c]

/-- C35: recovery can always be brought to its end, from every state met. -/
theorem ends {w : Nat} (hw : Width w) {d : Disk w} {valid : Nat → Bool} {N H : Nat} (hH : 0 < H) :
    ∀ n s, left s = n → Reached d valid N H s →
      ∃ t, Reached d valid N H t ∧ ∀ i, i < 32 → (t.shard i).st ≠ .run := by
  intro n
  induction n with
  | zero =>
    intro s hl h
    by_cases q : ∀ i, i < 32 → (s.shard i).st ≠ .run
    · exact ⟨s, h, q⟩
    · simp only [not_forall, not_not] at q
      obtain ⟨i, hi, hr⟩ := q
      obtain ⟨⟨t, st, -⟩, -⟩ := no_assert hw hH h i hi hr
      have := step_decreases hw hH h st
      omega
  | succ n ih =>
    intro s hl h
    by_cases q : ∀ i, i < 32 → (s.shard i).st ≠ .run
    · exact ⟨s, h, q⟩
    · simp only [not_forall, not_not] at q
      obtain ⟨i, hi, hr⟩ := q
      obtain ⟨⟨t, st, -⟩, -⟩ := no_assert hw hH h i hi hr
      have := step_decreases hw hH h st
      exact ih t (by omega) (.step h st)

/-- C35: metadata without an inconsistent line is recovered: every run that has ended has succeeded, and
there is one. -/
theorem accepted {w : Nat} (hw : Width w) {d : Disk w} {valid : Nat → Bool} {N H : Nat} (hH : 0 < H)
    (hg : ∀ c, c < N → ¬ Inconsistent d valid c) :
    (∀ s, Reached d valid N H s → (∀ i, i < 32 → (s.shard i).st ≠ .run) → Succeeded s) ∧
    ∃ s, Reached d valid N H s ∧ Succeeded s := by
  have h1 : ∀ s, Reached d valid N H s → (∀ i, i < 32 → (s.shard i).st ≠ .run) → Succeeded s := by
    intro s h hend i hi
    have hr := refused_iff_partial hw hH h hend
    cases q : (s.shard i).st with
    | run => exact absurd q (hend i hi)
    | ok => rfl
    | err =>
      obtain ⟨c, hc, hb⟩ := hr.1 ⟨i, hi, q⟩
      exact absurd hb (hg c hc)
  refine ⟨h1, ?_⟩
  obtain ⟨t, ht, hend⟩ := ends (d := d) (valid := valid) (N := N) hw hH _ (start d N H (fun _ => 0)) rfl
    (.init ⟨_, rfl⟩)
  exact ⟨t, ht, h1 t ht hend⟩

/-! ### Concrete cases -/

/-- Three lines of eight sectors: line 0 partly dirty, line 1 clean, line 2 dirty of another core. -/
def exDisk : Disk 8 where
  core := fun c => if c = 0 then (1, 7) else if c = 1 then (1, 8) else if c = 2 then (3, 7) else noCore
  bits := fun c => if c = 0 then ⟨0x0f#8, 0x05#8⟩ else if c = 1 then ⟨0xff#8, 0#8⟩
    else if c = 2 then ⟨0x80#8, 0x80#8⟩ else ⟨0#8, 0#8⟩

theorem exDisk_good : ∀ c, c < 4 → ¬ Inconsistent exDisk (fun k => k == 1 || k == 3) c := by
  intro c hc
  unfold Inconsistent Kept
  have : c = 0 ∨ c = 1 ∨ c = 2 ∨ c = 3 := by omega
  rcases this with rfl | rfl | rfl | rfl <;> decide

/-- C35: a case of the theorems: line 0 keeps sectors 0 and 2 only, line 1 is freed, and core line 7 of
core 3 is found on line 2. -/
example : ∃ s, Reached exDisk (fun k => k == 1 || k == 3) 4 3 s ∧ Succeeded s ∧
    s.table.core 0 = (1, 7) ∧ (s.bits 0).valid.getLsbD 1 = false ∧ (s.bits 0).valid.getLsbD 2 = true ∧
    s.table.core 1 = noCore ∧ lookup s.table (3, 7) 5 = some (some 2) ∧ 1 ∈ s.freeL 1 := by
  have hw : Width 8 := by unfold Width; omega
  obtain ⟨-, s, h, hs⟩ := accepted (H := 3) hw (by omega) exDisk_good
  have k0 : Kept exDisk 0 := by unfold Kept; decide
  have k1 : ¬ Kept exDisk 1 := by unfold Kept; decide
  have k2 : Kept exDisk 2 := by unfold Kept; decide
  have h0 := (keeps_exactly_dirty hw (by omega) h hs 0 (by omega)).1 k0
  have h1 := (keeps_exactly_dirty hw (by omega) h hs 1 (by omega)).2 k1
  have hd : Distinct exDisk 4 := by
    have k3 : ¬ Kept exDisk 3 := by unfold Kept; decide
    intro c c' hc hc' hk hk' he
    have e1 : c = 0 ∨ c = 1 ∨ c = 2 ∨ c = 3 := by omega
    have e2 : c' = 0 ∨ c' = 1 ∨ c' = 2 ∨ c' = 3 := by omega
    rcases e1 with rfl | rfl | rfl | rfl <;> rcases e2 with rfl | rfl | rfl | rfl <;>
      first | rfl | exact absurd hk k1 | exact absurd hk' k1 | exact absurd hk k3 | exact absurd hk' k3 |
        exact absurd he (by decide)
  obtain ⟨-, r, hl, hr⟩ := lookup_after hw (by omega) hd h hs (3, 7)
  have := (hr 2).2 ⟨by omega, k2, rfl⟩
  rw [this] at hl
  refine ⟨s, h, hs, h0.1, ?_, ?_, h1.1, hl, ((lists_exact hw (by omega) h hs 1).2.1.2 1).2 ⟨by omega, rfl, k1⟩⟩
  · rw [(h0.2.2.2 1 (by omega)).1]; rfl
  · rw [(h0.2.2.2 2 (by omega)).1]; rfl

/-- C35: a case of a refusal: line 2 is dirty, of a core that is not configured. -/
example (s : State 8) (h : Reached exDisk (fun k => k == 1) 4 3 s)
    (hend : ∀ i, i < 32 → (s.shard i).st ≠ .run) : ∃ i, i < 32 ∧ (s.shard i).st = .err := by
  have hw : Width 8 := by unfold Width; omega
  exact (refused_iff_partial hw (by omega) h hend).2 ⟨2, by omega, by unfold Inconsistent Kept; decide⟩

/-- Two lines hold different dirty data of the same core line. -/
def dupDisk : Disk 8 where
  core := fun c => if c < 2 then (1, 7) else noCore
  bits := fun c => if c < 2 then ⟨0x0f#8, 0x05#8⟩ else ⟨0#8, 0#8⟩

/-- C35, what is missing: metadata in which two lines hold dirty data of the same core line, which no run
of the cache writes, is accepted, and both lines are mapped to it. -/
theorem duplicate_accepted : ∃ s, Reached dupDisk (fun k => k == 1) 4 3 s ∧ Succeeded s ∧
    s.table.core 0 = (1, 7) ∧ s.table.core 1 = (1, 7) := by
  have hw : Width 8 := by unfold Width; omega
  have hg : ∀ c, c < 4 → ¬ Inconsistent dupDisk (fun k => k == 1) c := by
    intro c hc
    unfold Inconsistent Kept
    have : c = 0 ∨ c = 1 ∨ c = 2 ∨ c = 3 := by omega
    rcases this with rfl | rfl | rfl | rfl <;> decide
  obtain ⟨-, s, h, hs⟩ := accepted (H := 3) hw (by omega) hg
  have k0 : Kept dupDisk 0 := by unfold Kept; decide
  have k1 : Kept dupDisk 1 := by unfold Kept; decide
  exact ⟨s, h, hs, ((keeps_exactly_dirty hw (by omega) h hs 0 (by omega)).1 k0).1,
    ((keeps_exactly_dirty hw (by omega) h hs 1 (by omega)).1 k1).1⟩

end Verif.Recovery
