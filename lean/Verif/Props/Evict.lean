import Verif.Lemma.Evict

/-!
# Taking lines for a request (C13)

The statements mention the shared state, the position of a thread and its map only.
-/

namespace Verif.Evict

open Lru (Key freeId getKey)

/-- All states of all executions. -/
def Reachable (hb : Nat × Nat → Nat) (s : St) : Prop := Verif.Reach Init (Step hb) s

theorem inv_of {hb : Nat × Nat → Nat} {s : St} (h : Reachable hb s) : Inv hb s :=
  Verif.Reach.inv (P := Inv hb) (fun _ h => inv_init h) (fun _ _ hi st => inv_step hi st) s h

/-- **C13.**  A line returned to make room (also from the free list) holds no dirty data, is
locked by this request alone, its bucket is locked, and it is not one of the lines the request
itself is about. -/
theorem taken_clean_unused (hb : Nat × Nat → Nat) (s : St) (h : Reachable hb s) (t c : Nat)
    (hp : (s.th t).pc = .got c) :
    s.dirty c = false ∧ s.writer c = some t ∧ s.readers c = 0 ∧
    ((s.th t).req.src ≠ freeId → s.hash (hb (s.core c)) = some t ∧
      ¬ ((s.core c).1 = (s.th t).req.core ∧ (s.th t).req.first ≤ (s.core c).2 ∧
        (s.core c).2 ≤ (s.th t).req.last)) := by
  have hi := inv_of h
  obtain ⟨_, h1, _⟩ := (hi.th t).get hp (by simp)
  refine ⟨h1.cur.clean, h1.cur.wr, hi.glob.excl c (by rw [h1.cur.wr]; simp), fun hs => ⟨?_, ?_⟩⟩
  · refine (h1.hash _).2 (.inr ⟨c, ?_, rfl⟩)
    simp [Th.bucket, hs]
  · have := h1.safe hs
    unfold Safe Req.inRange at this
    rintro ⟨a, b, d⟩
    simp [a, b, d] at this

/-- No assertion of the code fails: the line is clean, it is on the list it is removed from, a
slot of the request is free for it, and the request is not filled beyond its demand. -/
theorem no_assert (hb : Nat × Nat → Nat) (s : St) (h : Reachable hb s) : s.bug = false :=
  (inv_of h).glob.bug

/-- A line taken by one request is never taken by another while the first one holds it. -/
theorem taken_once (hb : Nat × Nat → Nat) (s : St) (h : Reachable hb s) (t t' c : Nat)
    (hp : (s.th t).pc = .got c) (hp' : (s.th t').pc = .got c) : t = t' := by
  have h1 := (taken_clean_unused hb s h t c hp).2.1
  have h2 := (taken_clean_unused hb s h t' c hp').2.1
  rw [h1] at h2; exact Option.some.inj h2

/-- When the function returns, the request has locked exactly the lines it had before and those
assigned to its map, and exactly its own buckets: nothing is leaked by rejected candidates. -/
theorem locks_exact (hb : Nat × Nat → Nat) (s : St) (h : Reachable hb s) (t : Nat)
    (hp : (s.th t).pc = .done) :
    (∀ c, s.writer c = some t ↔ (s.th t).had c = true ∨ .remapped c ∈ (s.th t).map) ∧
    (∀ b, s.hash b = some t ↔ (s.th t).req.own b = true) := by
  obtain ⟨_, h1, h2, _⟩ := ((inv_of h).th t).get hp (by simp)
  refine ⟨fun c => (h1 c).trans (by simp), fun b => (h2 b).trans (by simp)⟩

/-- List locks are held only by a thread that is working on that list. -/
def Pc.list : Pc → Option Nat
  | .scan l _ => some l
  | .chk l _ _ => some l
  | .tryHash l _ _ => some l
  | .wait l _ _ => some l
  | .unhash l _ _ => some l
  | .unline l _ _ => some l
  | .found l _ => some l
  | .release l _ => some l
  | _ => none

theorem list_lock_inv (hb : Nat × Nat → Nat) (s : St) (h : Reachable hb s) :
    ∀ l t, s.lruLock l = some t → (s.th t).pc.list = some l := by
  induction h with
  | init h => intro l t hl; rw [h.lru] at hl; exact absurd hl (by simp)
  | step hr st ih =>
    intro l t hl
    cases st
    case pick s t0 hp hg hl0 =>
      simp only [upd] at *
      by_cases e : l = (s.th t0).it.next.idx
      · simp only [if_pos e] at hl
        have : t = t0 := (Option.some.inj hl).symm
        simp [this, e, Pc.list]
      · simp only [if_neg e] at hl
        have := ih l t hl
        by_cases e' : t = t0
        · rw [e', hp] at this; exact absurd this (by simp [Pc.list])
        · simp only [if_neg e']; exact this
    case release s t0 l0 r hp =>
      simp only [upd, St.go] at *
      by_cases e : l = l0
      · simp [e] at hl
      · simp only [if_neg e] at hl
        have := ih l t hl
        by_cases e' : t = t0
        · rw [e', hp] at this
          exact absurd (Option.some.inj this).symm e
        · simp only [if_neg e']; exact this
    case lock s t0 l0 n c hp _ _ _ =>
      have := ih l t hl
      by_cases e' : t = t0
      · simp only [e', hp] at this
        simp only [St.go, upd, e', if_true]
        split <;> exact this
      · simp only [St.go, upd, if_neg e']; exact this
    all_goals
      first
      | exact ih l t hl
      | (have := ih l t hl
         simp only [St.go, St.goLog, upd]
         split
         · next e => subst e; simp_all [Pc.list]
         · exact this)

/-- … and no list lock is kept. -/
theorem no_list_lock (hb : Nat × Nat → Nat) (s : St) (h : Reachable hb s) (t l : Nat)
    (hp : (s.th t).pc = .done) : s.lruLock l ≠ some t := by
  intro e
  have := list_lock_inv hb s h l t e
  rw [hp] at this
  exact absurd this (by simp [Pc.list])

/-- At any time during and after the call: hits and misses of the map at the call are kept
except that misses were given lines; each line given stands for the core line of its slot, so
no two slots share a line; the count returned is the number of slots filled and never exceeds
the demand. -/
theorem slots_exact (hb : Nat × Nat → Nat) (s : St) (h : Reachable hb s) (t : Nat)
    (hp : (s.th t).pc ≠ .idle) :
    (∀ i : Nat, (s.th t).map[i]? = (s.th t).map0[i]? ∨
      ((s.th t).map0[i]? = some .miss ∧ ∃ c, (s.th t).map[i]? = some (.remapped c))) ∧
    (∀ i c : Nat, (s.th t).map[i]? = some (.remapped c) →
      s.core c = ((s.th t).req.core, (s.th t).req.first + i)) ∧
    (∀ i j c : Nat, (s.th t).map[i]? = some (.remapped c) →
      (s.th t).map[j]? = some (.remapped c) → i = j) ∧
    misses (s.th t).map + (s.th t).got = misses (s.th t).map0 ∧
    (s.th t).got ≤ (s.th t).req.want := by
  obtain ⟨b, _⟩ := ((inv_of h).th t).get rfl hp
  refine ⟨b.map, b.core, ?_, b.count, b.got⟩
  intro i j c h1 h2
  have e := (b.core i c h1).symm.trans (b.core j c h2)
  have := (Prod.mk.inj e).2
  omega

/-- The search is exhaustive: if fewer lines than asked for are returned, every one of the
lists of the source partition was locked during the call and every line on it rejected. -/
theorem search_exhaustive (hb : Nat × Nat → Nat) (s : St) (h : Reachable hb s) (t : Nat)
    (hp : (s.th t).pc = .done) (hg : (s.th t).got < (s.th t).req.want) (l : Nat) (hl : l < W) :
    ∃ xs, .visit l xs ∈ (s.th t).log ∧ ∀ c ∈ xs, ∃ w, .reject c w ∈ (s.th t).log := by
  obtain ⟨_, _, _, h3⟩ := ((inv_of h).th t).get hp (by simp)
  rcases h3 with h3 | h3
  · omega
  · exact h3 l hl

/-- What the log means: a list is logged as visited with its contents when its lock is taken; a
line is logged as rejected only if it was locked, is an own target line, has a busy bucket or
waiters. -/
theorem log_sound (hb : Nat × Nat → Nat) (s s' : St) (st : Step hb s s') (t : Nat) (e : Ev)
    (hn : e ∉ (s.th t).log) (he : e ∈ (s'.th t).log) :
    (∃ l, e = .visit l (s.seq ((s.th t).req.list l)) ∧ s'.lruLock l = some t) ∨
    (∃ c, e = .reject c .busy ∧ (s.writer c ≠ none ∨ s.readers c ≠ 0)) ∨
    (∃ c, e = .reject c .own ∧ (s.core c).1 = (s.th t).req.core ∧
      (s.th t).req.first ≤ (s.core c).2 ∧ (s.core c).2 ≤ (s.th t).req.last) ∨
    (∃ c, e = .reject c .bucket ∧ (s.th t).req.own (hb (s.core c)) = false ∧
      s.hash (hb (s.core c)) ≠ none) ∨
    (∃ c, e = .reject c .waited ∧ s.waiters c = true) := by
  cases st
  case pick t0 hp hg hl =>
    by_cases e' : t = t0
    · subst e'
      simp only [upd, if_true, List.mem_cons] at he
      rcases he with he | he
      · exact .inl ⟨_, he, by simp [upd]⟩
      · exact absurd he hn
    · simp only [upd, if_neg e'] at he; exact absurd he hn
  case lockFail t0 l n c hp hc hw =>
    by_cases e' : t = t0
    · subst e'
      simp only [St.goLog, upd, if_true, List.mem_cons] at he
      rcases he with he | he
      · exact .inr (.inl ⟨c, he, hw⟩)
      · exact absurd he hn
    · simp only [St.goLog, upd, if_neg e'] at he; exact absurd he hn
  case own t0 l n c hp hr =>
    by_cases e' : t = t0
    · subst e'
      simp only [St.goLog, upd, if_true, List.mem_cons] at he
      rcases he with he | he
      · refine .inr (.inr (.inl ⟨c, he, ?_⟩))
        simp only [Req.inRange, Bool.and_eq_true, beq_iff_eq, decide_eq_true_eq] at hr
        exact ⟨hr.1.1, hr.1.2, hr.2⟩
      · exact absurd he hn
    · simp only [St.goLog, upd, if_neg e'] at he; exact absurd he hn
  case hashFail t0 l n c hp hr hh =>
    by_cases e' : t = t0
    · subst e'
      simp only [St.goLog, upd, if_true, List.mem_cons] at he
      rcases he with he | he
      · exact .inr (.inr (.inr (.inl ⟨c, he, hr, hh⟩)))
      · exact absurd he hn
    · simp only [St.goLog, upd, if_neg e'] at he; exact absurd he hn
  case waited t0 l n c hp hw =>
    by_cases e' : t = t0
    · subst e'
      simp only [St.goLog, upd, if_true, List.mem_cons] at he
      rcases he with he | he
      · exact .inr (.inr (.inr (.inr ⟨c, he, hw⟩)))
      · exact absurd he hn
    · simp only [St.goLog, upd, if_neg e'] at he; exact absurd he hn
  case call t0 r map _ _ _ _ _ _ _ =>
    by_cases e' : t = t0
    · subst e'; simp [upd, Th.start] at he
    · simp only [upd, if_neg e'] at he; exact absurd he hn
  all_goals
    first
    | exact absurd he hn
    | (refine absurd ?_ hn
       simp only [St.go, upd] at he
       split at he <;> simp_all)

/-- The next list is the first one after the current one, cyclically, that is not exhausted. -/
theorem round_robin (it : It) (h : ItOk it) (hn : 0 < it.num) :
    ∃ d, 0 < d ∧ d ≤ W ∧ it.next.idx = (it.idx + d) % W ∧ it.avail it.next.idx = true ∧
      ∀ d', 0 < d' → d' < d → it.avail ((it.idx + d') % W) = false := by
  obtain ⟨j, hj, hb⟩ := mask_of_num h hn
  have hi := h.idx
  rcases ffs_spec it.mask with ⟨_, h0⟩ | ⟨h1, h2, h3, h4⟩
  · rw [h0 j hj] at hb; exact absurd hb (by simp)
  · refine ⟨ffs it.mask, h1, h2, rfl, ?_, ?_⟩
    · unfold It.avail It.next
      have : ((it.idx + ffs it.mask) % W + (W - 1) - it.idx) % W = ffs it.mask - 1 := by
        simp only [W] at *; omega
      simp only [this]; exact h3
    · intro d' hd hd'
      unfold It.avail
      have : ((it.idx + d') % W + (W - 1) - it.idx) % W = d' - 1 := by
        simp only [W] at *; omega
      rw [this]; exact h4 _ (by omega)

/-! ## A concrete execution -/

/-- Class 3 holds clean line 37 (core 1, core line 9); nothing is locked. -/
def s0 : St where
  writer := fun _ => none
  readers := fun _ => 0
  waiters := fun _ => false
  dirty := fun _ => false
  core := fun _ => (1, 9)
  seq := fun k => if k = ⟨3, 5, true⟩ then [37] else []
  lruLock := fun _ => none
  hash := fun _ => none
  th := fun _ => ⟨.idle, ⟨0, 0, 0, fun _ => false, 0, 0, 0, 0⟩, It.init 0, [], 0, 0, [], fun _ => false, []⟩
  bug := false

theorem s0_init : Init s0 := by
  have hm : ∀ (k : Key) (c : Nat), c ∈ s0.seq k → k = ⟨3, 5, true⟩ ∧ c = 37 := by
    intro k c hc
    simp only [s0] at hc
    split at hc
    · next e => exact ⟨e, by simpa using hc⟩
    · exact absurd hc (by simp)
  refine ⟨fun _ => rfl, fun _ => rfl, fun _ => rfl, fun _ => rfl, fun _ => rfl, rfl, ?_, ?_, ?_, ?_⟩
  · intro k; simp only [s0]; split <;> simp
  · intro k k' c h h'; rw [(hm k c h).1, (hm k' c h').1]
  · intro k c h; rw [(hm k c h).1, (hm k c h).2]; rfl
  · intro k c _ _; rfl

/-- The request: core 0, lines 4..6, the first is a hit, two are missing, wants one line of
class 3 for class 2; starts at list 5. -/
def r0 : Req := ⟨0, 4, 6, fun _ => false, 3, 2, 1, 5⟩

/-- An execution that takes line 37 for the second slot of the request. -/
example : ∃ s, Reachable (fun x => x.2) s ∧ (s.th 0).pc = .got 37 ∧
    (s.th 0).req.src ≠ freeId := by
  have h0 : Reachable (fun x => x.2) s0 := .init s0_init
  have h1 := h0.step (.call s0 0 r0 [.hit 2, .miss, .miss] rfl (by simp [s0, r0]) (by decide)
    (by decide) (by decide) (by intro i c h; rcases i with _ | _ | _ | i <;> simp at h)
    (by intro k c h; exact absurd h (by simp [s0])))
  have h2 := h1.step (.pick _ 0 rfl (by decide) rfl)
  have h3 := h2.step (.lock _ 0 5 0 37 (by decide +kernel) (by decide +kernel) rfl rfl)
  have h4 := h3.step (.notOwn _ 0 5 0 37 (by decide +kernel) (by decide +kernel))
  have h5 := h4.step (.hashLock _ 0 5 0 37 (by decide +kernel) (by decide +kernel) rfl)
  have h6 := h5.step (.free _ 0 5 0 37 (by decide +kernel) rfl)
  have h7 := h6.step (.take _ 0 5 37 (by decide +kernel))
  have h8 := h7.step (.release _ 0 5 (some 37) (by decide +kernel))
  have h9 := h8.step (.markFound _ 0 5 37 (by decide +kernel))
  exact ⟨_, h9, by decide +kernel, by decide +kernel⟩

/-- Thread 0 alone, lists empty. -/
def alone (s : St) : Option St :=
  match (s.th 0).pc with
  | .pick =>
    if (s.th 0).got < (s.th 0).req.want ∧ s.lruLock (s.th 0).it.next.idx = none then
      some { s with
        lruLock := upd s.lruLock (s.th 0).it.next.idx (some 0)
        th := upd s.th 0 { s.th 0 with
          it := (s.th 0).it.next
          pc := .scan (s.th 0).it.next.idx (s.seq ((s.th 0).req.list (s.th 0).it.next.idx)).length
          log := .visit (s.th 0).it.next.idx (s.seq ((s.th 0).req.list (s.th 0).it.next.idx))
            :: (s.th 0).log } }
    else none
  | .scan l 0 => some (s.go 0 (.release l none))
  | .release l none => some ({ s with lruLock := upd s.lruLock l none }.go 0 (.mark l none))
  | .mark _ none => some { s with th := upd s.th 0 { s.th 0 with
        it := (afterEmpty (s.th 0).it).1, pc := (afterEmpty (s.th 0).it).2 } }
  | _ => none

theorem alone_sound {hb : Nat × Nat → Nat} {s s' : St} (h : alone s = some s') : Step hb s s' := by
  unfold alone at h
  split at h
  · next hp =>
    split at h
    · next hg => rw [← Option.some.inj h]; exact .pick s 0 hp hg.1 hg.2
    · exact absurd h (by simp)
  · next l hp => rw [← Option.some.inj h]; exact .scanEnd s 0 l hp
  · next l hp => rw [← Option.some.inj h]; exact .release s 0 l none hp
  · next l hp => rw [← Option.some.inj h]; exact .markEmpty s 0 l hp
  · exact absurd h (by simp)

def aloneN : Nat → St → Option St
  | 0, s => some s
  | n + 1, s => (alone s).bind (aloneN n)

theorem aloneN_sound {hb : Nat × Nat → Nat} (n : Nat) (s s' : St) (h : aloneN n s = some s')
    (hr : Reachable hb s) : Reachable hb s' := by
  induction n generalizing s with
  | zero => rw [← Option.some.inj h]; exact hr
  | succ n ih =>
    unfold aloneN at h
    cases ha : alone s with
    | none => rw [ha] at h; exact absurd h (by simp)
    | some x => rw [ha] at h; exact ih x h (hr.step (alone_sound ha))

/-- An execution that gives up: class 2 is asked and has no clean lines. -/
example : ∃ s, Reachable (fun x => x.2) s ∧ (s.th 0).pc = .done ∧
    (s.th 0).got < (s.th 0).req.want := by
  have h0 : Reachable (fun x => x.2) s0 := .init s0_init
  have h1 := h0.step (.call s0 0 { r0 with src := 2 } [.hit 2, .miss, .miss] rfl (by simp [s0, r0])
    (by decide) (by decide) (by decide)
    (by intro i c h; rcases i with _ | _ | _ | i <;> simp at h)
    (by intro k c h; exact absurd h (by simp [s0])))
  generalize hs : ({ s0 with th := upd s0.th 0 (Th.start s0 0 { r0 with src := 2 }
    [.hit 2, .miss, .miss]) } : St) = s1 at h1
  have key : ((aloneN 128 s1).map fun s => ((s.th 0).pc, decide ((s.th 0).got < (s.th 0).req.want))) =
      some (.done, true) := by rw [← hs]; decide +kernel
  cases ha : aloneN 128 s1 with
  | none => rw [ha] at key; exact absurd key (by simp)
  | some s =>
    rw [ha] at key
    have := Option.some.inj key
    exact ⟨s, aloneN_sound _ _ _ ha h1, (Prod.mk.inj this).1, by simpa using (Prod.mk.inj this).2⟩

end Verif.Evict
