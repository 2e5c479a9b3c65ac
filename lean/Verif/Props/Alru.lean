import Verif.Lemma.AlruRun
import Mathlib.Data.List.Induction
import Mathlib.Data.List.TakeWhile
import Mathlib.Tactic.NormNum

/-!
# The ALRU cleaning lists (C28)

The list of an I/O class, read by its pointers from the head or from the tail, holds exactly the
dirty lines of the class, each once, the line written last at the head.  No internal assertion
fails.  The lines collected for cleaning are the oldest ones.
-/

namespace Verif.Alru

open Verif.Collision (upd upd_same upd_ne Chain)

/-! ## Specification -/

/-- The lines met when following the pointers `nx` from `x`, at most `k`. -/
def follow (nx : Nat → Nat) (n : Nat) : Nat → Nat → List Nat
  | 0, _ => []
  | k + 1, x => if x < n then x :: follow nx n k (nx x) else []

/-- `xs` is the list of class `p`, read from the head and from the tail, however far one reads. -/
def Reads (a : Lists) (p : Nat) (xs : List Nat) : Prop :=
  ∀ k, a.n ≤ k → follow a.next a.n k (a.head p) = xs ∧ follow a.prev a.n k (a.tail p) = xs.reverse

/-- Number of the operation that touched `c` last, the latest operation first in the list; `0` for a line
not touched since the policy was chosen. -/
def lastTouchRev : List Op → Nat → Nat
  | [], _ => 0
  | .hot d _ :: r, c => if c = d then r.length + 1 else lastTouchRev r c
  | .populate .. :: _, _ => 0
  | _ :: r, c => lastTouchRev r c

/-- Number of the operation that touched `c` last. -/
def lastTouch (ops : List Op) (c : Nat) : Nat := lastTouchRev ops.reverse c

/-- `c` was touched after `d`; lines not touched are in the order of their numbers. -/
def After (ops : List Op) (c d : Nat) : Prop :=
  lastTouch ops d < lastTouch ops c ∨ (lastTouch ops c = 0 ∧ lastTouch ops d = 0 ∧ d < c)

/-- The clock does not run backwards, and shows `t` at the last of the operations (the latest first); choosing
the policy takes less than one tick of the clock. -/
def Clock : List Op → Nat → Prop
  | [], _ => True
  | op :: r, t => ∃ t', t' ≤ t ∧ Clock r t' ∧
      match op with
      | .hot _ now => now = t ∧ t' ≤ t
      | .populate now .. => ∀ c, now c = t
      | _ => True

/-- `ops` led from the choice of the policy, whatever the memory of the lists held then, to `st`. -/
def Reached (parts : Nat) (ops : List Op) (st : State) : Prop :=
  ∃ st0 st1 op ops', Before parts st0 ∧
    (∃ now next prev ts head tail size sched,
      op = .populate now next prev ts head tail size sched) ∧
    guard parts st0 op ∧ exec parts st0 op = some st1 ∧ Run parts st1 ops' st ∧ ops = op :: ops'

/-- No operation is in the middle of its work on a line. -/
def Settled (st : State) : Prop := ∀ c, st.phase c = .idle

/-! ## Reading a chain -/

theorem follow_chain {n : Nat} {next prev : Nat → Nat} :
    ∀ {xs : List Nat} {p hd k : Nat}, Chain n next prev p hd xs → (∀ c ∈ xs, c < n) →
      xs.length ≤ k → follow next n k hd = xs
  | [], _, hd, k, h, _, _ => by
    have h' : hd = n := h
    cases k with
    | zero => rfl
    | succ k => simp [follow, h']
  | x :: xs, _, hd, k, h, hl, hk => by
    obtain ⟨h1, _, h3⟩ := h
    cases k with
    | zero => simp at hk
    | succ k =>
      subst h1
      have hx := hl hd (by simp)
      simp only [follow, hx, if_true]
      rw [follow_chain h3 (fun c hc => hl c (by simp [hc])) (by simp at hk; omega)]

theorem follow_back {n : Nat} {next prev : Nat → Nat} {xs : List Nat} {hd : Nat}
    (h : Chain n next prev n hd xs) (hl : ∀ c ∈ xs, c < n) :
    ∀ (m : Nat) (a : List Nat) (c : Nat) (b : List Nat), a.length = m → xs = a ++ c :: b →
      ∀ k, m < k → follow prev n k c = c :: a.reverse := by
  intro m
  induction m with
  | zero =>
    intro a c b ha hx k hk
    have ha' : a = [] := List.length_eq_zero_iff.1 ha
    subst ha'
    rw [hx] at h
    have hp := (Chain.split h).1
    have hc := hl c (by rw [hx]; simp)
    cases k with
    | zero => omega
    | succ k =>
      simp only [follow, hc, if_true]
      rw [hp]
      cases k with
      | zero => rfl
      | succ k => simp [follow]
  | succ m ih =>
    intro a c b ha hx k hk
    have hne : a ≠ [] := by intro e; subst e; simp at ha
    obtain ⟨a', y, rfl⟩ : ∃ a' y, a = a' ++ [y] := ⟨a.dropLast, a.getLast hne,
      (List.dropLast_append_getLast hne).symm⟩
    have hp : prev c = y := by
      rw [hx] at h
      rw [(Chain.split h).1]
      rw [List.getLast_cons (by simp)]; simp
    have hc := hl c (by rw [hx]; simp)
    cases k with
    | zero => omega
    | succ k =>
      simp only [follow, hc, if_true]
      rw [hp, ih a' y (c :: b) (by simpa using ha) (by rw [hx]; simp) k (by omega)]
      simp

theorem length_le_of_nodup {n : Nat} {xs : List Nat} (h : xs.Nodup) (hl : ∀ c ∈ xs, c < n) :
    xs.length ≤ n := by
  have : xs.Subperm (List.range n) := h.subperm fun c hc => by simpa using hl c hc
  simpa using this.length_le

theorem Rep.reads {a : Lists} {L : Nat → List Nat} (r : Rep a L) (p : Nat) : Reads a p (L p) := by
  intro k hk
  have hlen := length_le_of_nodup (r.nodup p) (r.lt p)
  refine ⟨follow_chain (r.chain p) (r.lt p) (by omega), ?_⟩
  rw [r.tail p]
  by_cases h : L p = []
  · rw [h]
    cases k with
    | zero => rfl
    | succ k => simp [follow, lastOf]
  · have e := List.dropLast_append_getLast h
    have hl : lastOf a.n (L p) = (L p).getLast h := by unfold lastOf; rw [List.getLast_cons h]
    rw [hl, follow_back (r.chain p) (r.lt p) (L p).dropLast.length (L p).dropLast _ [] rfl e.symm k
      (by
        have : (L p).length ≠ 0 := fun e0 => h (List.length_eq_zero_iff.1 e0)
        rw [List.length_dropLast]; omega)]
    conv_rhs => rw [← e]
    simp

theorem Reads.unique {a : Lists} {p : Nat} {xs ys : List Nat} (h : Reads a p xs) (h' : Reads a p ys) :
    xs = ys := (h a.n (Nat.le_refl _)).1.symm.trans (h' a.n (Nat.le_refl _)).1

/-! ## The invariant of a run -/

theorem order_pairwise {parts : Nat} {ops : List Op} {st : State} (h : Reached parts ops st) :
    Inv parts st ∧ st.recent.Pairwise (After ops) := by
  obtain ⟨st0, st1, op, ops', hb, ⟨now, next, prev, ts, head, tail, size, sched, rfl⟩, g, e, hr, rfl⟩ := h
  have hlt : ∀ (ops : List Op) (c : Nat), lastTouchRev ops c ≤ ops.length := by
    intro ops c
    induction ops with
    | nil => simp [lastTouchRev]
    | cons op r ih =>
      cases op <;> simp only [lastTouchRev, List.length_cons] <;> first | omega | skip
      split <;> omega
  have hpop : ∀ (ops : List Op) (n : Nat), (∀ c, lastTouch ops c = 0) →
      (List.range n).reverse.Pairwise (After ops) := by
    intro ops n h
    rw [List.pairwise_reverse]
    exact List.Pairwise.imp (fun hab => Or.inr ⟨h _, h _, hab⟩) List.pairwise_lt_range
  induction hr with
  | nil =>
    obtain ⟨a', e', I', en, _⟩ := inv_populate (parts := parts) (now := now) (next := next)
      (prev := prev) (ts := ts) (head := head) (tail := tail) (size := size) hb.lines hb.idle
      (fun c hc => by rw [hb.idle c]; exact hb.mapped c hc) hb.part g.2
    have : _ = _ := Option.some.inj (e.symm.trans e')
    subst this
    exact ⟨I', hpop _ _ fun c => rfl⟩
  | @snoc st' st'' ops op hr g' e' ih =>
    obtain ⟨I, ho⟩ := ih
    obtain ⟨s2, e2, I2, _, hord, _⟩ := step_inv I g'
    have : st'' = s2 := Option.some.inj (e'.symm.trans e2)
    subst this
    refine ⟨I2, ?_⟩
    rw [hord]
    have hsnoc : ∀ c, lastTouch (Op.populate now next prev ts head tail size sched :: (ops ++ [op])) c
        = lastTouchRev (op :: (Op.populate now next prev ts head tail size sched :: ops).reverse) c := by
      intro c
      unfold lastTouch
      simp
    have hsame : (∀ c, lastTouchRev (op :: (Op.populate now next prev ts head tail size sched ::
        ops).reverse) c = lastTouch (Op.populate now next prev ts head tail size sched :: ops) c) →
        st'.recent.Pairwise (After (Op.populate now next prev ts head tail size sched ::
          (ops ++ [op]))) := by
      intro h
      refine ho.imp ?_
      intro c d hcd
      unfold After at hcd ⊢
      rw [hsnoc, hsnoc, h, h]; exact hcd
    cases op with
    | hot c t =>
      show (c :: st'.recent.erase c).Pairwise _
      have hc1 : lastTouch (Op.populate now next prev ts head tail size sched ::
          (ops ++ [Op.hot c t])) c = ops.length + 2 := by
        rw [hsnoc]; simp [lastTouchRev]
      have hne : ∀ d, d ≠ c → lastTouch (Op.populate now next prev ts head tail size sched ::
          (ops ++ [Op.hot c t])) d =
          lastTouch (Op.populate now next prev ts head tail size sched :: ops) d := by
        intro d hd
        rw [hsnoc]; simp [lastTouchRev, lastTouch, hd]
      rw [List.pairwise_cons]
      constructor
      · intro d hd
        have hdc : d ≠ c := fun e0 => List.Nodup.not_mem_erase I.rnodup (e0 ▸ hd)
        left
        rw [hc1, hne d hdc]
        have := hlt (Op.populate now next prev ts head tail size sched :: ops).reverse d
        unfold lastTouch
        simp only [List.length_reverse, List.length_cons] at this
        omega
      · have h1 := (ho.sublist List.erase_sublist : (st'.recent.erase c).Pairwise _)
        refine List.Pairwise.imp_of_mem ?_ h1
        intro x y hx hy hxy
        have hxc : x ≠ c := fun e0 => List.Nodup.not_mem_erase I.rnodup (e0 ▸ hx)
        have hyc : y ≠ c := fun e0 => List.Nodup.not_mem_erase I.rnodup (e0 ▸ hy)
        unfold After at hxy ⊢
        rw [hne x hxc, hne y hyc]; exact hxy
    | populate now2 next2 prev2 ts2 head2 tail2 size2 sched2 =>
      exact hpop _ _ fun c => by rw [hsnoc]; rfl
    | markDirty c => exact hsame fun _ => rfl
    | markClean c => exact hsame fun _ => rfl
    | purge c => exact hsame fun _ => rfl
    | sparse c => exact hsame fun _ => rfl
    | sparseEnd c => exact hsame fun _ => rfl
    | repart c q => exact hsame fun _ => rfl
    | move c => exact hsame fun _ => rfl
    | map c p => exact hsame fun _ => rfl
    | unmap c => exact hsame fun _ => rfl

theorem reached_inv {parts : Nat} {ops : List Op} {st : State} (h : Reached parts ops st) :
    Inv parts st := (order_pairwise h).1

/-! ## Properties -/

/-- **C28**: the list of a class, read from either end, holds exactly the dirty lines of the class, each
once, and its recorded size is their number. -/
theorem lists_exact {parts : Nat} {ops : List Op} {st : State} (h : Reached parts ops st)
    (hset : Settled st) (p : Nat) :
    ∃ xs, Reads st.a p xs ∧ xs.Nodup ∧ st.a.size p = xs.length ∧
      ∀ c, c ∈ xs ↔ c < st.a.n ∧ st.l.dirty c = true ∧ st.l.part c = p := by
  have I := reached_inv h
  refine ⟨_, I.rep.reads p, I.rep.nodup p, I.rep.size p, fun c => ?_⟩
  rw [I.mem]
  unfold listed
  rw [hset c]
  cases st.l.dirty c <;> simp [listedOf]

/-- **C28** while operations are at work: a line no operation is busy with is on the list of its class if it
is dirty, and on no list if it is clean. -/
theorem line_exact {parts : Nat} {ops : List Op} {st : State} (h : Reached parts ops st) {c : Nat}
    (hc : c < st.a.n) (hi : st.phase c = .idle) (p : Nat) :
    ∃ xs, Reads st.a p xs ∧ xs.Nodup ∧
      (c ∈ xs ↔ st.l.dirty c = true ∧ st.l.part c = p) := by
  have I := reached_inv h
  refine ⟨_, I.rep.reads p, I.rep.nodup p, ?_⟩
  rw [I.mem]
  unfold listed
  rw [hi]
  cases st.l.dirty c <;> simp [listedOf, hc]

/-- **C28**: the line touched last comes first. -/
theorem lists_in_order {parts : Nat} {ops : List Op} {st : State} (h : Reached parts ops st) (p : Nat) :
    ∃ xs, Reads st.a p xs ∧ xs.Pairwise (After ops) := by
  obtain ⟨I, ho⟩ := order_pairwise h
  exact ⟨_, I.rep.reads p, ho.filter _⟩

/-- **C28**: no assertion of the lists fails, whatever operation comes next. -/
theorem no_assertion {parts : Nat} {ops : List Op} {st : State} (h : Reached parts ops st) {op : Op}
    (g : guard parts st op) : ∃ st', exec parts st op = some st' := by
  obtain ⟨st', e, _⟩ := step_inv (reached_inv h) g
  exact ⟨st', e⟩

/-- **C28**: choosing the policy succeeds whatever the memory of the lists held and in whatever order the
shards come to the lines; the lists are then those of the dirty lines, the highest number first. -/
theorem populate_exact {parts : Nat} {st : State} (h : Before parts st)
    {now next prev ts head tail size : Nat → Nat} {sched : List (Nat × Nat)}
    (hs : Sched st.a.n shardsCnt sched) :
    ∃ st', exec parts st (.populate now next prev ts head tail size sched) = some st' ∧
      ∀ p, Reads st'.a p ((List.range st.a.n).reverse.filter fun c =>
        st.l.dirty c && (st.l.part c == p)) := by
  obtain ⟨a', e, I, en, _⟩ := inv_populate (parts := parts) (now := now) (next := next)
    (prev := prev) (ts := ts) (head := head) (tail := tail) (size := size) h.lines h.idle
    (fun c hc => by rw [h.idle c]; exact h.mapped c hc) h.part hs
  refine ⟨_, e, fun p => ?_⟩
  have := I.rep.reads p
  have hf : lof (List.range st.a.n).reverse (listed (State.mk a' st.l st.phase
      (List.range st.a.n).reverse)) p = (List.range st.a.n).reverse.filter fun c =>
      st.l.dirty c && (st.l.part c == p) := by
    unfold lof
    refine List.filter_congr fun c _ => ?_
    unfold listed
    show (listedOf (st.phase c) (st.l.dirty c) (st.l.part c) == some p) = _
    rw [h.idle c]
    cases st.l.dirty c <;> simp [listedOf]
  rw [← hf]
  exact this

theorem run_step {parts : Nat} {ops : List Op} {st st' : State} {op : Op} (h : Reached parts ops st)
    (g : guard parts st op) (e : exec parts st op = some st') : Reached parts (ops ++ [op]) st' := by
  obtain ⟨st0, st1, op0, ops', h1, h2, h3, h4, h5, rfl⟩ := h
  exact ⟨st0, st1, op0, ops' ++ [op], h1, h2, h3, h4, h5.snoc g e, rfl⟩

/-- **C28**: touching a line puts it at the head of the list of its class; the other lines keep their
order, and the other lists do not change. -/
theorem touch_moves {parts : Nat} {ops : List Op} {st st' : State} {c now p : Nat} {xs : List Nat}
    (h : Reached parts ops st) (g : guard parts st (.hot c now))
    (e : exec parts st (.hot c now) = some st') (hr : Reads st.a p xs) :
    Reads st'.a p (if p = st.l.part c then c :: xs.erase c else xs) := by
  have I := reached_inv h
  have I' := reached_inv (run_step h g e)
  have hxs := hr.unique (I.rep.reads p)
  obtain ⟨hc, hg⟩ := g
  have hl : listed st c = none ∨ listed st c = some (st.l.part c) := by
    unfold listed
    rcases hg with ⟨was, hp⟩ | ⟨hp, _, hd⟩
    · rw [hp]; cases was <;> simp [listedOf]
    · rw [hp, hd]; simp [listedOf]
  have hd : st.l.dirty c = true := by
    rcases hg with ⟨was, hp⟩ | ⟨_, _, hd⟩
    · have := I.shape c hc; rw [hp] at this; exact this.2
    · exact hd
  have hst : st'.recent = c :: st.recent.erase c ∧
      listed st' = upd (listed st) c (some (st.l.part c)) := by
    simp only [exec, Option.map_eq_some_iff] at e
    obtain ⟨a', _, rfl⟩ := e
    refine ⟨rfl, listed_upd (fun d hdc => ⟨upd_ne hdc, rfl, rfl⟩) ?_⟩
    unfold listed
    show listedOf (upd st.phase c .idle c) (st.l.dirty c) (st.l.part c) = _
    rw [upd_same, hd]; rfl
  have := I'.rep.reads p
  rw [hst.1, hst.2, lof_touch I.rnodup hl] at this
  by_cases hp : p = st.l.part c
  · rw [if_pos hp, hxs]
    subst hp
    rwa [upd_same] at this
  · rw [if_neg hp, hxs]
    rwa [upd_ne hp] at this

/-- **C28**: when a line became clean, is removed with its core, or moves to another class, it leaves
its list; the other lines keep their order, and the other lists do not change. -/
theorem purge_removes {parts : Nat} {ops : List Op} {st st' : State} {c p : Nat} {op : Op}
    {xs : List Nat} (h : Reached parts ops st) (g : guard parts st op)
    (hop : op = .purge c ∨ op = .sparse c ∨ ∃ q, op = .repart c q ∧ st.l.dirty c = true)
    (e : exec parts st op = some st') (hr : Reads st.a p xs) :
    Reads st'.a p (if p = st.l.part c then xs.erase c else xs) := by
  have I := reached_inv h
  have I' := reached_inv (run_step h g e)
  have hxs := hr.unique (I.rep.reads p)
  have key : listed st c = some (st.l.part c) ∧ st'.recent = st.recent ∧
      listed st' = upd (listed st) c none := by
    rcases hop with rfl | rfl | ⟨q, rfl, hd⟩
    · obtain ⟨hc, hp⟩ := g
      have hsh := I.shape c hc
      rw [hp] at hsh
      simp only [exec, Option.map_eq_some_iff] at e
      obtain ⟨a', _, rfl⟩ := e
      refine ⟨by unfold listed; rw [hp]; rfl, rfl,
        listed_upd (fun d hdc => ⟨upd_ne hdc, rfl, rfl⟩) ?_⟩
      unfold listed
      show listedOf (upd st.phase c .idle c) (st.l.dirty c) (st.l.part c) = _
      rw [upd_same, hsh.2]; rfl
    · obtain ⟨hc, hp, hd⟩ := g
      simp only [exec, Option.map_eq_some_iff] at e
      obtain ⟨a', _, rfl⟩ := e
      refine ⟨by unfold listed; rw [hp, hd]; rfl, rfl,
        listed_upd (fun d hdc => ⟨upd_ne hdc, rfl, rfl⟩) ?_⟩
      unfold listed
      show listedOf (upd st.phase c .sparse c) (st.l.dirty c) (st.l.part c) = _
      rw [upd_same]; rfl
    · obtain ⟨hc, hp, _, _⟩ := g
      simp only [exec, hd, if_true, Option.map_eq_some_iff] at e
      obtain ⟨a', _, rfl⟩ := e
      refine ⟨by unfold listed; rw [hp, hd]; rfl, rfl,
        listed_upd (fun d hdc => ⟨upd_ne hdc, rfl, rfl⟩) ?_⟩
      unfold listed
      show listedOf (upd st.phase c (.move q) c) (st.l.dirty c) (st.l.part c) = _
      rw [upd_same]; rfl
  have := I'.rep.reads p
  rw [key.2.1, key.2.2, lof_drop I.rnodup key.1] at this
  by_cases hp : p = st.l.part c
  · rw [if_pos hp, hxs]
    subst hp
    rwa [upd_same] at this
  · rw [if_neg hp, hxs]
    rwa [upd_ne hp] at this

/-! ## The age of the lines -/

/-- The lines of a list in the order of their time stamps. -/
theorem lists_by_time {parts : Nat} {ops : List Op} {st : State} {t : Nat}
    (h : Reached parts ops st) (ht : Clock ops.reverse t) (p : Nat) :
    ∃ xs, Reads st.a p xs ∧ xs.Pairwise (fun c d => st.a.ts d ≤ st.a.ts c) ∧
      ∀ c ∈ xs, st.a.ts c ≤ t := by
  have I := reached_inv h
  refine ⟨_, I.rep.reads p, ?_⟩
  obtain ⟨st0, st1, op, ops', hb, ⟨now, next, prev, ts, head, tail, size, sched, rfl⟩, g, e, hr, rfl⟩ := h
  suffices hS : (∀ p, (lof st.recent (listed st) p).Pairwise (fun c d => st.a.ts d ≤ st.a.ts c)) ∧
      ∀ c, c < st.a.n → listed st c ≠ none → st.a.ts c ≤ t by
    refine ⟨hS.1 p, fun c hc => ?_⟩
    have := I.mem.1 hc
    exact hS.2 c this.1 (by rw [this.2]; simp)
  clear I
  revert t
  induction hr with
  | nil =>
    intro t ht
    obtain ⟨a', e', I', en, ets⟩ := inv_populate (parts := parts) (now := now) (next := next)
      (prev := prev) (ts := ts) (head := head) (tail := tail) (size := size) hb.lines hb.idle
      (fun c hc => by rw [hb.idle c]; exact hb.mapped c hc) hb.part g.2
    have : _ = _ := Option.some.inj (e.symm.trans e')
    subst this
    obtain ⟨t', _, _, hnow⟩ := ht
    have hall : ∀ c, c < st0.a.n → listed (State.mk a' st0.l st0.phase (List.range st0.a.n).reverse) c
        ≠ none → a'.ts c = t := by
      intro c hc hl
      rw [ets c hc, hnow c]
      unfold listed at hl
      have hl' : listedOf (st0.phase c) (st0.l.dirty c) (st0.l.part c) ≠ none := hl
      rw [hb.idle c] at hl'
      cases hd : st0.l.dirty c
      · rw [hd] at hl'; exact absurd rfl hl'
      · rfl
    refine ⟨fun p => ?_, fun c hc hl => Nat.le_of_eq (hall c (en ▸ hc) hl)⟩
    refine List.Pairwise.imp_of_mem (R := fun _ _ => True) ?_ (List.pairwise_of_forall (by simp))
    intro c d hc hd _
    have h1 := I'.mem.1 hc
    have h2 := I'.mem.1 hd
    show a'.ts d ≤ a'.ts c
    rw [hall c (en ▸ h1.1) (by rw [h1.2]; simp), hall d (en ▸ h2.1) (by rw [h2.2]; simp)]
  | @snoc st' st'' ops op hr g' e' ih =>
    intro t ht
    have hrev : (Op.populate now next prev ts head tail size sched :: (ops ++ [op])).reverse =
        op :: (Op.populate now next prev ts head tail size sched :: ops).reverse := by simp
    rw [hrev] at ht
    obtain ⟨t', htt, hcl, hop⟩ := ht
    obtain ⟨ih1, ih2⟩ := ih hcl
    have hreach : Reached parts (Op.populate now next prev ts head tail size sched :: ops) st' :=
      ⟨st0, st1, _, ops, hb, ⟨now, next, prev, ts, head, tail, size, sched, rfl⟩, g, e, hr, rfl⟩
    have I := reached_inv hreach
    obtain ⟨s2, e2, I2, en2, hord, hts⟩ := step_inv I g'
    have : st'' = s2 := Option.some.inj (e'.symm.trans e2)
    subst this
    -- an operation that touches no line
    have hquiet : (∀ c, timeStep st'.a.ts c op = st'.a.ts c) →
        (∀ p, (lof st''.recent (listed st'') p).Sublist (lof st'.recent (listed st') p)) →
        (∀ p, (lof st''.recent (listed st'') p).Pairwise (fun c d => st''.a.ts d ≤ st''.a.ts c)) ∧
        ∀ c, c < st''.a.n → listed st'' c ≠ none → st''.a.ts c ≤ t := by
      intro h1 h2
      have hts' : ∀ p c, c ∈ lof st''.recent (listed st'') p → st''.a.ts c = st'.a.ts c := by
        intro p c hc
        have := I2.mem.1 hc
        rw [hts c (en2 ▸ this.1) (by rw [this.2]; simp), h1]
      refine ⟨fun p => ?_, fun c hc hl => ?_⟩
      · refine List.Pairwise.imp_of_mem ?_ ((ih1 p).sublist (h2 p))
        intro c d hc hd hcd
        rw [hts' p c hc, hts' p d hd]; exact hcd
      · obtain ⟨q, hq⟩ := Option.ne_none_iff_exists'.1 hl
        have hm : c ∈ lof st''.recent (listed st'') q := I2.mem.2 ⟨hc, hq⟩
        rw [hts' q c hm]
        have hm' := I.mem.1 ((h2 q).subset hm)
        exact Nat.le_trans (ih2 c hm'.1 (by rw [hm'.2]; simp)) htt
    have hread : ∀ p, ∃ xs, Reads st'.a p xs := fun p => ⟨_, I.rep.reads p⟩
    have hsame : listed st'' = listed st' → st''.recent = st'.recent →
        ∀ p, (lof st''.recent (listed st'') p).Sublist (lof st'.recent (listed st') p) := by
      intro h1 h2 p; rw [h1, h2]
    have hpurge : ∀ c, (op = .purge c ∨ op = .sparse c ∨ ∃ q, op = .repart c q ∧ st'.l.dirty c = true) →
        ∀ p, (lof st''.recent (listed st'') p).Sublist (lof st'.recent (listed st') p) := by
      intro c hc p
      have := purge_removes hreach g' hc e' (I.rep.reads p)
      have h3 := (I2.rep.reads p).unique this
      rw [h3]
      split
      · exact List.erase_sublist
      · exact List.Sublist.refl _
    cases op with
    | hot c tm =>
      obtain ⟨htm, _⟩ := hop
      have htc : ∀ d, d < st'.a.n → listed st'' d ≠ none → st''.a.ts d =
          if d = c then t else st'.a.ts d := by
        intro d hd hl
        rw [hts d hd hl, ← htm]; rfl
      have hlo : ∀ d, d ≠ c → listed st'' d = listed st' d := by
        intro d hd
        simp only [exec, Option.map_eq_some_iff] at e'
        obtain ⟨a', _, rfl⟩ := e'
        unfold listed
        show listedOf (upd st'.phase c .idle d) _ _ = _
        rw [upd_ne hd]
      have hle : ∀ d, d < st'.a.n → listed st'' d ≠ none → st''.a.ts d ≤ t := by
        intro d hd hl
        rw [htc d hd hl]
        split
        · exact Nat.le_refl _
        · rename_i hdc
          rw [hlo d hdc] at hl
          exact Nat.le_trans (ih2 d hd hl) htt
      refine ⟨fun p => ?_, fun d hd => hle d (en2 ▸ hd)⟩
      have hmv := touch_moves hreach g' e' (I.rep.reads p)
      have h3 := (I2.rep.reads p).unique hmv
      have hold : ∀ ys : List Nat, ys.Sublist (lof st'.recent (listed st') p) → c ∉ ys →
          (∀ d ∈ ys, d ∈ lof st''.recent (listed st'') p) →
          ys.Pairwise (fun c d => st''.a.ts d ≤ st''.a.ts c) := by
        intro ys hsub hc hin
        refine List.Pairwise.imp_of_mem ?_ ((ih1 p).sublist hsub)
        intro x y hx hy hxy
        have mx := I2.mem.1 (hin x hx)
        have my := I2.mem.1 (hin y hy)
        have hxc : x ≠ c := fun e0 => hc (e0 ▸ hx)
        have hyc : y ≠ c := fun e0 => hc (e0 ▸ hy)
        rw [htc x (en2 ▸ mx.1) (by rw [mx.2]; simp), htc y (en2 ▸ my.1) (by rw [my.2]; simp),
          if_neg hxc, if_neg hyc]
        exact hxy
      by_cases hp : p = st'.l.part c
      · rw [if_pos hp] at h3
        rw [h3, List.pairwise_cons]
        constructor
        · intro d hd
          have md := I2.mem.1 (by rw [h3]; simp [hd] : d ∈ lof st''.recent (listed st'') p)
          have mc := I2.mem.1 (by rw [h3]; simp : c ∈ lof st''.recent (listed st'') p)
          rw [htc c (en2 ▸ mc.1) (by rw [mc.2]; simp), if_pos rfl]
          exact hle d (en2 ▸ md.1) (by rw [md.2]; simp)
        · exact hold _ List.erase_sublist (List.Nodup.not_mem_erase (I.rep.nodup p))
            (fun d hd => by rw [h3]; simp [hd])
      · rw [if_neg hp] at h3
        rw [h3]
        refine hold _ (List.Sublist.refl _) (fun hm => ?_) (fun d hd => by rw [h3]; exact hd)
        have mm := (I2.mem.1 (by rw [h3]; exact hm : c ∈ lof st''.recent (listed st'') p)).2
        simp only [exec, Option.map_eq_some_iff] at e'
        obtain ⟨a', _, rfl⟩ := e'
        unfold listed at mm
        have mm' : listedOf (upd st'.phase c .idle c) (st'.l.dirty c) (st'.l.part c) = some p := mm
        rw [upd_same] at mm'
        cases hdc : st'.l.dirty c <;> rw [hdc] at mm' <;> simp [listedOf] at mm'
        exact hp mm'.symm
    | populate now2 next2 prev2 ts2 head2 tail2 size2 sched2 =>
      have hop' : ∀ c, now2 c = t := hop
      have hall : ∀ c, c < st'.a.n → listed st'' c ≠ none → st''.a.ts c = t := by
        intro c hc hl
        rw [hts c hc hl]; exact hop' c
      refine ⟨fun p => ?_, fun c hc hl => Nat.le_of_eq (hall c (en2 ▸ hc) hl)⟩
      refine List.Pairwise.imp_of_mem (R := fun _ _ => True) ?_ (List.pairwise_of_forall (by simp))
      intro c d hc hd _
      have h1 := I2.mem.1 hc
      have h2 := I2.mem.1 hd
      rw [hall c (en2 ▸ h1.1) (by rw [h1.2]; simp), hall d (en2 ▸ h2.1) (by rw [h2.2]; simp)]
    | purge c => exact hquiet (fun _ => rfl) (hpurge c (Or.inl rfl))
    | sparse c => exact hquiet (fun _ => rfl) (hpurge c (Or.inr (Or.inl rfl)))
    | repart c q =>
      refine hquiet (fun _ => rfl) ?_
      cases hd : st'.l.dirty c
      · have hi := g'.2.1
        simp only [exec, hd, Bool.false_eq_true, if_false, Option.some.injEq] at e'
        subst e'
        refine hsame ?_ rfl
        refine (listed_upd (st := st') (c := c) (v := listed st' c)
          (fun d hd => ⟨by rfl, by rfl, by exact upd_ne hd⟩) ?_).trans (upd_self rfl)
        unfold listed
        show listedOf (st'.phase c) (st'.l.dirty c) _ = _
        rw [hi, hd]; rfl
      · exact hpurge c (Or.inr (Or.inr ⟨q, rfl, hd⟩))
    | markDirty c =>
      refine hquiet (fun _ => rfl) (hsame ?_ hord)
      have hi := g'.2.1
      simp only [exec, Option.some.injEq] at e'
      subst e'
      refine (listed_upd (st := st') (c := c) (v := listed st' c)
        (fun d hd => ⟨by exact upd_ne hd, by exact upd_ne hd, by rfl⟩) ?_).trans (upd_self rfl)
      unfold listed
      show listedOf (upd st'.phase c _ c) _ _ = _
      rw [upd_same, hi]; rfl
    | markClean c =>
      refine hquiet (fun _ => rfl) (hsame ?_ hord)
      have hi := g'.2.1
      have hd := g'.2.2
      simp only [exec, Option.some.injEq] at e'
      subst e'
      refine (listed_upd (st := st') (c := c) (v := listed st' c)
        (fun d hd => ⟨by exact upd_ne hd, by exact upd_ne hd, by rfl⟩) ?_).trans (upd_self rfl)
      unfold listed
      show listedOf (upd st'.phase c _ c) _ _ = _
      rw [upd_same, hi, hd]; rfl
    | sparseEnd c =>
      refine hquiet (fun _ => rfl) (hsame ?_ hord)
      have hi := g'.2
      simp only [exec, Option.some.injEq] at e'
      subst e'
      refine (listed_upd (st := st') (c := c) (v := listed st' c)
        (fun d hd => ⟨by exact upd_ne hd, by exact upd_ne hd, by rfl⟩) ?_).trans (upd_self rfl)
      unfold listed
      show listedOf (upd st'.phase c _ c) (upd st'.l.dirty c false c) _ = _
      rw [upd_same, upd_same, hi]; rfl
    | move c =>
      refine hquiet (fun _ => rfl) (hsame ?_ hord)
      obtain ⟨_, q, hi⟩ := g'
      simp only [exec, hi, Option.some.injEq] at e'
      subst e'
      refine (listed_upd (st := st') (c := c) (v := listed st' c)
        (fun d hd => ⟨by exact upd_ne hd, by rfl, by exact upd_ne hd⟩) ?_).trans (upd_self rfl)
      unfold listed
      show listedOf (upd st'.phase c _ c) _ _ = _
      rw [upd_same, hi]; rfl
    | map c q =>
      refine hquiet (fun _ => rfl) (hsame ?_ hord)
      have hi := g'.2.1
      have hd : st'.l.dirty c = false := by
        cases hd : st'.l.dirty c
        · rfl
        · have := I.shape c g'.1
          rw [hi] at this
          have h5 := g'.2.2.1
          rw [this hd] at h5; simp at h5
      simp only [exec, Option.some.injEq] at e'
      subst e'
      refine (listed_upd (st := st') (c := c) (v := listed st' c)
        (fun d hd => ⟨by rfl, by rfl, by exact upd_ne hd⟩) ?_).trans (upd_self rfl)
      unfold listed
      show listedOf (st'.phase c) (st'.l.dirty c) _ = _
      rw [hi, hd]; rfl
    | unmap c =>
      refine hquiet (fun _ => rfl) (hsame ?_ hord)
      simp only [exec, Option.some.injEq] at e'
      subst e'
      rfl

/-! ## Choosing lines to clean -/

theorem walk_spec {a : Lists} {busy : Nat → Bool} {limit last : Nat} {next : Nat → Nat}
    {xs : List Nat} {hd : Nat} (hch : Chain a.n next a.prev a.n hd xs) (hl : ∀ c ∈ xs, c < a.n) :
    ∀ (ys : List Nat) (fuel c : Nat) (got zs : List Nat), xs = ys ++ zs → c = lastOf a.n ys →
      ys.length < fuel → got.length ≤ limit →
      ∃ flag, walk a busy limit last fuel c got =
        some ((got ++ (ys.reverse.takeWhile (fun c => a.ts c < last)).filter (fun c => !busy c)).take
          limit, flag) ∧
        (flag = true → (got ++ (ys.reverse.takeWhile (fun c => a.ts c < last)).filter
          (fun c => !busy c)).length ≥ limit) := by
  intro ys
  induction ys using List.reverseRecOn with
  | nil =>
    intro fuel c got zs _ hc hf hg
    cases fuel with
    | zero => simp at hf
    | succ fuel =>
      have : c = a.n := hc
      refine ⟨false, ?_, by simp⟩
      simp [walk, more, this, List.take_of_length_le hg]
  | append_singleton ys y ih =>
    intro fuel c got zs hx hc hf hg
    have hcy : c = y := by rw [hc, lastOf_append (by simp)]; rfl
    subst hcy
    have hcn : c < a.n := hl c (by rw [hx]; simp)
    cases fuel with
    | zero => simp at hf
    | succ fuel =>
      have hprev : a.prev c = lastOf a.n ys := by
        have h' := hch
        rw [hx, List.append_assoc] at h'
        exact (Chain.split h').1
      have hnot : ¬ c ≥ a.n := by omega
      simp only [List.reverse_append, List.reverse_cons, List.reverse_nil, List.nil_append,
        List.singleton_append, List.takeWhile_cons]
      by_cases hts : a.ts c < last
      · simp only [hts, decide_true, if_true, walk, more, hnot, if_false,
          show ¬ a.ts c ≥ last by omega]
        by_cases hlim : got.length ≥ limit
        · refine ⟨true, ?_, ?_⟩
          · simp only [hlim, if_true, Bool.not_true, Bool.false_eq_true, if_false]
            have hgl : got.length = limit := by omega
            subst hgl
            rw [List.take_left']
            rfl
          · intro _
            rw [List.length_append]; omega
        · simp only [hlim, if_false, Bool.not_true, Bool.false_eq_true]
          cases hb : busy c with
          | true =>
            simp only [if_true, List.filter_cons, hb, Bool.not_true, Bool.false_eq_true, if_false]
            exact ih fuel (a.prev c) got (c :: zs) (by rw [hx]; simp) hprev (by simp at hf; omega) hg
          | false =>
            simp only [Bool.false_eq_true, if_false, List.filter_cons, hb, Bool.not_false, if_true]
            have := ih fuel (a.prev c) (got ++ [c]) (c :: zs) (by rw [hx]; simp) hprev
              (by simp at hf; omega) (by simp; omega)
            simpa using this
      · refine ⟨false, ?_, by simp⟩
        have : a.ts c ≥ last := by omega
        simp [walk, more, hnot, this, hts, List.take_of_length_le hg]

theorem takeWhile_eq_filter {R : Nat → Nat} {last : Nat} :
    ∀ {ys : List Nat}, ys.Pairwise (fun c d => R c ≤ R d) →
      ys.takeWhile (fun c => R c < last) = ys.filter (fun c => R c < last)
  | [], _ => rfl
  | y :: ys, h => by
    rw [List.pairwise_cons] at h
    rw [List.takeWhile_cons, List.filter_cons]
    by_cases hy : R y < last
    · simp only [hy, decide_true, if_true]
      rw [takeWhile_eq_filter h.2]
    · simp only [hy, decide_false, Bool.false_eq_true, if_false]
      symm
      rw [List.filter_eq_nil_iff]
      intro d hd
      have := h.1 d hd
      simp; omega

theorem collect_spec {a : Lists} {L : Nat → List Nat} (r : Rep a L) {busy : Nat → Bool}
    {limit last fuel : Nat} (hf : a.n < fuel) :
    ∀ (ps got : List Nat), got.length ≤ limit →
      collect a busy limit last fuel ps got = some ((got ++ ps.flatMap fun p =>
        ((L p).reverse.takeWhile (fun c => a.ts c < last)).filter (fun c => !busy c)).take limit)
  | [], got, hg => by simp [collect, List.take_of_length_le hg]
  | p :: ps, got, hg => by
    have hlen := length_le_of_nodup (r.nodup p) (r.lt p)
    obtain ⟨flag, e, hfl⟩ := walk_spec (busy := busy) (limit := limit) (last := last) (r.chain p) (r.lt p)
      (L p) fuel (a.tail p) got [] (by simp) (r.tail p) (by omega) hg
    unfold collect
    rw [e, List.flatMap_cons]
    generalize ((L p).reverse.takeWhile (fun c => a.ts c < last)).filter (fun c => !busy c) = w at *
    cases flag with
    | true =>
      have := hfl rfl
      simp only []
      rw [← List.append_assoc, List.take_append_of_le_length this]
    | false =>
      simp only []
      rw [collect_spec r hf ps _ (by rw [List.length_take]; omega)]
      rw [← List.append_assoc]
      by_cases hw : (got ++ w).length ≤ limit
      · rw [List.take_of_length_le hw]
      · have h1 : ((got ++ w).take limit).length = limit := by rw [List.length_take]; omega
        rw [List.take_append_of_le_length (l₁ := (got ++ w).take limit) (by omega),
          List.take_append_of_le_length (l₁ := got ++ w) (by omega), List.take_take, Nat.min_self]

/-- **C28**, the lines taken for cleaning: class by class, the dirty lines of the class touched before
`last` that no request is busy with, the oldest first, until the limit; nothing else, no line twice. -/
theorem collect_oldest {parts : Nat} {ops : List Op} {st : State} {t : Nat}
    (h : Reached parts ops st) (ht : Clock ops.reverse t) {busy : Nat → Bool} {limit last fuel : Nat}
    (hf : st.a.n < fuel) {ps : List Nat} {xs : Nat → List Nat} (hr : ∀ p, Reads st.a p (xs p)) :
    collect st.a busy limit last fuel ps [] = some ((ps.flatMap fun p =>
      (xs p).reverse.filter fun c => decide (st.a.ts c < last) && !busy c).take limit) := by
  have I := reached_inv h
  rw [collect_spec I.rep hf ps [] (by simp)]
  congr 2
  rw [List.nil_append]
  refine List.flatMap_congr fun p _ => ?_
  obtain ⟨ys, hy, hs, _⟩ := lists_by_time h ht p
  have e1 : ys = xs p := hy.unique (hr p)
  have e2 : lof st.recent (listed st) p = xs p := (I.rep.reads p).unique (hr p)
  rw [e2]
  rw [e1] at hs
  rw [takeWhile_eq_filter (R := st.a.ts) (last := last) (List.pairwise_reverse.2 hs), List.filter_filter]
  refine List.filter_congr fun c _ => Bool.and_comm _ _

/-- No line is taken for cleaning twice. -/
theorem collect_nodup {parts : Nat} {ops : List Op} {st : State} (h : Reached parts ops st)
    {busy : Nat → Bool} {limit last fuel : Nat} (hf : st.a.n < fuel) {ps : List Nat}
    (hps : ps.Nodup) {got : List Nat} (e : collect st.a busy limit last fuel ps [] = some got) :
    got.Nodup ∧ got.length ≤ limit ∧ ∀ c ∈ got, c < st.a.n ∧ st.a.ts c < last ∧ busy c = false := by
  have I := reached_inv h
  rw [collect_spec I.rep hf ps [] (by simp), List.nil_append] at e
  have hg := (Option.some.inj e).symm
  have hmem : ∀ p c, c ∈ ((lof st.recent (listed st) p).reverse.takeWhile
      (fun c => st.a.ts c < last)).filter (fun c => !busy c) →
      c ∈ lof st.recent (listed st) p ∧ st.a.ts c < last ∧ busy c = false := by
    intro p c hc
    rw [List.mem_filter] at hc
    refine ⟨?_, ?_, by simpa using hc.2⟩
    · have := (List.takeWhile_sublist _).subset hc.1
      simpa using this
    · have := List.mem_takeWhile_imp hc.1
      simpa using this
  subst hg
  refine ⟨?_, by rw [List.length_take]; omega, ?_⟩
  · refine List.Nodup.sublist (List.take_sublist _ _) ?_
    rw [List.nodup_flatMap]
    constructor
    · intro p _
      refine List.Nodup.filter _ ?_
      exact List.Nodup.sublist (List.takeWhile_sublist _) (List.nodup_reverse.2 (I.rep.nodup p))
    · refine List.Pairwise.imp ?_ hps
      intro p q hpq c hc hc'
      exact hpq (I.rep.disj p q c (hmem p c hc).1 (hmem q c hc').1)
  · intro c hc
    have := (List.take_sublist _ _).subset hc
    obtain ⟨p, _, hp⟩ := List.mem_flatMap.1 this
    have g := hmem p c hp
    exact ⟨I.rep.lt p c g.1, g.2⟩

/-! ## The share of dirty lines -/

/-- While `dirty * 100` fits in 32 bits the check of the share of dirty lines is right. -/
theorem dirty_ratio_exact {dirty size maxRatio : Nat} (h : dirty * 100 < 2 ^ 32) (hs : 0 < size) :
    dirtyRatio dirty size maxRatio = true ↔ maxRatio ≠ 100 ∧ maxRatio * size ≤ dirty * 100 := by
  unfold dirtyRatio
  rw [Nat.mod_eq_of_lt h]
  by_cases hm : maxRatio = 100
  · simp [hm]
  · simp [hm, Nat.le_div_iff_mul_le hs]

/-- Defect: a cache of 42949673 lines (164 GiB with 4 KiB lines) full of dirty data is taken for one with
no dirty data, whatever the limit. -/
theorem dirty_ratio_overflow {maxRatio : Nat} (h : 0 < maxRatio) :
    dirtyRatio 42949673 42949673 maxRatio = false := by
  unfold dirtyRatio
  by_cases hm : maxRatio = 100
  · simp [hm]
  · simp only [hm, if_false, decide_eq_false_iff_not, ge_iff_le, Nat.not_le]
    norm_num
    exact h

/-! ## Example -/

/-- Five lines, of which 0, 2 and 4 are dirty, 2 in class 1; the lists hold arbitrary values. -/
def exStart : State :=
  { a := { n := 5, head := fun _ => 3, tail := fun _ => 1, size := fun _ => 9, next := fun c => c + 1,
           prev := fun c => c, ts := fun _ => 7 }
    l := { mapped := fun c => decide (c ≠ 1), dirty := fun c => decide (c % 2 = 0), part := fun c => c % 4 / 2 }
    phase := fun _ => .idle
    recent := [] }

/-- The shards do not run in the order of their numbers. -/
def exSched : List (Nat × Nat) := [(3, 3), (0, 0), (4, 4), (2, 2), (1, 1)]

def exOps : List Op :=
  [.populate (fun _ => 10) (fun c => c + 1) (fun c => c) (fun _ => 7) (fun _ => 3) (fun _ => 1) (fun _ => 9)
    exSched,
   .markDirty 3, .hot 3 11, .hot 0 12, .repart 4 1, .move 4, .hot 4 13, .markClean 2]

/-- The run of the operations. -/
def runOps (parts : Nat) : State → List Op → Option State
  | st, [] => some st
  | st, op :: r => (exec parts st op).bind fun st => runOps parts st r

theorem exSched_ok : Sched 5 shardsCnt exSched := by
  refine ⟨by decide, ?_⟩
  decide

theorem runOps_snoc {parts : Nat} : ∀ {ops : List Op} {st st' : State} {op : Op},
    runOps parts st (ops ++ [op]) = some st' →
      ∃ s, runOps parts st ops = some s ∧ exec parts s op = some st'
  | [], st, st', op, h => by
    refine ⟨st, rfl, ?_⟩
    simp only [List.nil_append, runOps] at h
    cases hx : exec parts st op with
    | none => rw [hx] at h; simp at h
    | some s => rw [hx] at h; simpa using h
  | o :: ops, st, st', op, h => by
    simp only [List.cons_append, runOps] at h
    cases hx : exec parts st o with
    | none => rw [hx] at h; simp at h
    | some s =>
      rw [hx] at h
      obtain ⟨s', h1, h2⟩ := runOps_snoc (ops := ops) (by simpa using h)
      exact ⟨s', by simp [runOps, hx, h1], h2⟩

theorem exBefore : Before 2 exStart := by
  refine ⟨fun _ => rfl, ?_, ?_, by decide⟩
  · decide
  · decide

/-- The lists during the example: choosing the policy succeeds ... -/
example : ((runOps 2 exStart exOps).map fun st =>
    (follow st.a.next 5 5 (st.a.head 0), follow st.a.next 5 5 (st.a.head 1),
     follow st.a.prev 5 5 (st.a.tail 1), st.a.size 0, st.a.size 1)) =
    some ([0], [4, 3, 2], [2, 3, 4], 1, 3) := by decide +kernel

/-- ... and the lines for cleaning are the oldest ones that are not busy. -/
example : ((runOps 2 exStart exOps).bind fun st =>
    collect st.a (fun c => c == 3) 2 13 6 [1, 0] []) = some [2, 0] := by decide +kernel

/-- A state as the theorems assume it: the state of the example is reached. -/
example : ∃ st, Reached 2 (exOps.take 3) st ∧ Settled st ∧ Clock (exOps.take 3).reverse 11 := by
  obtain ⟨st1, e1, _⟩ := populate_exact (parts := 2) (now := fun _ => 10) (next := fun c => c + 1)
    (prev := fun c => c) (ts := fun _ => 7) (head := fun _ => 3) (tail := fun _ => 1)
    (size := fun _ => 9) exBefore exSched_ok
  have h1 : Reached 2 [.populate (fun _ => 10) (fun c => c + 1) (fun c => c) (fun _ => 7) (fun _ => 3)
      (fun _ => 1) (fun _ => 9) exSched] st1 :=
    ⟨exStart, st1, _, [], exBefore, ⟨_, _, _, _, _, _, _, _, rfl⟩,
      ⟨fun _ => rfl, exSched_ok⟩, e1, .nil st1, rfl⟩
  have hl : st1.l = exStart.l ∧ st1.phase = exStart.phase ∧ st1.a.n = 5 := by
    obtain ⟨a', e', _, en, _⟩ := inv_populate (parts := 2) (st := exStart) (now := fun _ => 10)
      (next := fun c => c + 1) (prev := fun c => c) (ts := fun _ => 7) (head := fun _ => 3)
      (tail := fun _ => 1) (size := fun _ => 9) exBefore.lines exBefore.idle
      (fun c hc => exBefore.mapped c hc) exBefore.part exSched_ok
    have : _ = _ := Option.some.inj (e1.symm.trans e')
    subst this
    exact ⟨rfl, rfl, en⟩
  have g2 : guard 2 st1 (.markDirty 3) :=
    ⟨by rw [hl.2.2]; decide, by rw [hl.2.1]; rfl, by rw [hl.1]; rfl⟩
  obtain ⟨st2, e2⟩ := no_assertion h1 g2
  have h2 := run_step h1 g2 e2
  have hs2 : st2.phase = upd st1.phase 3 (.hot (st1.l.dirty 3)) ∧ st2.a = st1.a := by
    simp only [exec, Option.some.injEq] at e2
    subst e2; exact ⟨rfl, rfl⟩
  have g3 : guard 2 st2 (.hot 3 11) :=
    ⟨by rw [hs2.2, hl.2.2]; decide, Or.inl ⟨_, by rw [hs2.1]; rfl⟩⟩
  obtain ⟨st3, e3⟩ := no_assertion h2 g3
  refine ⟨st3, run_step h2 g3 e3, ?_, ?_⟩
  · intro c
    simp only [exec, Option.map_eq_some_iff] at e3
    obtain ⟨a', _, rfl⟩ := e3
    show upd st2.phase 3 .idle c = .idle
    by_cases hc : c = 3
    · subst hc; rw [upd_same]
    · rw [upd_ne hc, hs2.1, upd_ne hc, hl.2.1]; rfl
  · exact ⟨10, by omega, ⟨10, by omega, ⟨0, by omega, trivial, fun _ => rfl⟩, trivial⟩, rfl, by omega⟩

end Verif.Alru
