import Verif.Model.Alock
import Verif.Lemma.Common

/-! Lemmas about the cache line lock: effect of one section, and the invariant of the shared
data that every step keeps. -/

namespace Verif.Alock

/-- Read tokens of an entry. -/
def readers (e : Nat) (l : List Tok) : Nat := l.countP (fun t => t.entry == e && !t.write)
/-- Write tokens of an entry. -/
def writers (e : Nat) (l : List Tok) : Nat := l.countP (fun t => t.entry == e && t.write)
/-- Tokens of an entry, in order. -/
def of (e : Nat) (l : List Tok) : List Tok := l.filter (fun t => t.entry == e)

/-- The access word tells the truth about the number of readers and writers. -/
def Match (a : Acc) (nr nw : Nat) : Prop :=
  match a with
  | .rd n => nr = n ∧ nw = 0
  | .wr => nr = 0 ∧ nw = 1

theorem of_cons_eq {e : Nat} {w : Tok} {l : List Tok} (h : w.entry = e) :
    of e (w :: l) = w :: of e l := by simp [of, h]
theorem of_cons_ne {e : Nat} {w : Tok} {l : List Tok} (h : w.entry ≠ e) :
    of e (w :: l) = of e l := by simp [of, h]
theorem of_append (e : Nat) (l m : List Tok) : of e (l ++ m) = of e l ++ of e m := by
  simp [of]
theorem mem_of {e : Nat} {w : Tok} {l : List Tok} : w ∈ of e l ↔ w ∈ l ∧ w.entry = e := by
  simp [of]
theorem readers_append (e : Nat) (l m : List Tok) :
    readers e (l ++ m) = readers e l + readers e m := by simp [readers]
theorem writers_append (e : Nat) (l m : List Tok) :
    writers e (l ++ m) = writers e l + writers e m := by simp [writers]
theorem readers_cons (e : Nat) (w : Tok) (l : List Tok) :
    readers e (w :: l) = readers e l + (if w.entry = e ∧ w.write = false then 1 else 0) := by
  simp [readers, List.countP_cons]
theorem writers_cons (e : Nat) (w : Tok) (l : List Tok) :
    writers e (w :: l) = writers e l + (if w.entry = e ∧ w.write = true then 1 else 0) := by
  simp [writers, List.countP_cons]
@[simp] theorem readers_nil (e : Nat) : readers e [] = 0 := rfl
@[simp] theorem writers_nil (e : Nat) : writers e [] = 0 := rfl
@[simp] theorem of_nil (e : Nat) : of e [] = [] := rfl

theorem wakeOne_ok (wasWr x : Bool) (a : Acc) (w : Bool) (nr nw : Nat)
    (hm : Match a (nr + (if x && !wasWr then 1 else 0)) (nw + (if x && wasWr then 1 else 0))) :
    (wakeOne wasWr x a w).2 = false ∧ ∀ a', (wakeOne wasWr x a w).1 = some a' →
      Match a' (nr + (if w then 0 else 1)) (nw + (if w then 1 else 0)) := by
  rcases a with n | _ <;> cases x <;> cases wasWr <;> cases w <;>
    simp [wakeOne, Match] at hm ⊢ <;> (try (obtain ⟨h1, h2⟩ := hm)) <;> (try subst h1) <;>
    (try subst h2) <;> (try simp) <;> try omega

/-- What the waking loop guarantees, given the numbers of other holders. -/
structure WakeSpec (e : Nat) (wasWr : Bool) (x : Bool) (l : List Tok) (nr nw : Nat)
    (r : Wake) : Prop where
  bug : r.bug = false
  acc : Match r.acc (nr + readers e r.woken + (if r.exchanged && !wasWr then 1 else 0))
    (nw + writers e r.woken + (if r.exchanged && wasWr then 1 else 0))
  split : of e l = r.woken ++ of e r.rest
  other : ∀ f, f ≠ e → of f r.rest = of f l
  sub : r.rest.Sublist l
  exch : r.exchanged = true → x = true ∧ r.woken = []
  busy : r.exchanged = false → 0 < nr + readers e r.woken + nw + writers e r.woken
  stuckX : r.exchanged = true → ∀ w, (of e r.rest).head? = some w →
    w.write = true ∧ wasWr = false ∧ r.acc ≠ .rd 1
  stuck : r.exchanged = false → ∀ w, (of e r.rest).head? = some w →
    w.write = true ∨ r.acc = .wr
  count : ∀ p : Tok → Bool, l.countP p = r.woken.countP p + r.rest.countP p
  went : ∀ w ∈ r.woken, w.entry = e

theorem wake_spec (e : Nat) (wasWr : Bool) (l : List Tok) : ∀ (a : Acc) (x : Bool) (nr nw : Nat),
    Match a (nr + (if x && !wasWr then 1 else 0)) (nw + (if x && wasWr then 1 else 0)) →
    (x = false → 0 < nr + nw) →
    WakeSpec e wasWr x l nr nw (wakeLoop e wasWr a x l) := by
  induction l with
  | nil =>
    intro a x nr nw hm hx
    constructor <;> simp_all [wakeLoop]
  | cons w ws ih =>
    intro a x nr nw hm hx
    by_cases hw : ¬ w.entry = e
    · have h := ih a x nr nw hm hx
      have e1 : wakeLoop e wasWr a x (w :: ws) =
          { wakeLoop e wasWr a x ws with rest := w :: (wakeLoop e wasWr a x ws).rest } := by
        rw [wakeLoop, if_pos hw]
      rw [e1]
      refine ⟨h.bug, h.acc, ?_, ?_, ?_, h.exch, h.busy, ?_, ?_, ?_, h.went⟩
      · simp only [of_cons_ne hw]; exact h.split
      · intro f hf
        by_cases hwf : w.entry = f
        · simp only [of_cons_eq hwf, h.other f hf]
        · simp only [of_cons_ne hwf, h.other f hf]
      · exact h.sub.cons_cons w
      · simp only [of_cons_ne hw]; exact h.stuckX
      · simp only [of_cons_ne hw]; exact h.stuck
      · intro p; simp only [List.countP_cons]; rw [h.count p]; omega
    · replace hw := Decidable.not_not.1 hw
      cases ho : (wakeOne wasWr x a w.write).1 with
      | none =>
        have e1 : wakeLoop e wasWr a x (w :: ws) =
            ⟨a, x, w :: ws, [], (wakeOne wasWr x a w.write).2⟩ := by
          rw [wakeLoop, if_neg (by simp [hw])]; simp [ho]
        rw [e1]
        have hb := (wakeOne_ok wasWr x a w.write nr nw hm).1
        refine ⟨hb, by simpa using hm, by simp [of_cons_eq hw], by simp, List.Sublist.refl _,
          by simp, by simpa using hx, ?_, ?_, by simp, by simp⟩
        · intro hxx v hv
          simp only [of_cons_eq hw, List.head?_cons, Option.some.injEq] at hv
          subst hv
          simp only at hxx
          subst hxx
          revert ho
          cases wasWr <;> cases hww : w.write <;> cases a <;>
            simp_all [wakeOne, Match]
        · intro hxx v hv
          simp only [of_cons_eq hw, List.head?_cons, Option.some.injEq] at hv
          subst hv
          simp only at hxx
          subst hxx
          revert ho
          cases hww : w.write <;> cases a <;>
            simp_all [wakeOne, Match]
      | some a' =>
        have e1 : wakeLoop e wasWr a x (w :: ws) =
            { wakeLoop e wasWr a' false ws with
              woken := w :: (wakeLoop e wasWr a' false ws).woken
              bug := (wakeOne wasWr x a w.write).2 || (wakeLoop e wasWr a' false ws).bug } := by
          rw [wakeLoop, if_neg (by simp [hw])]; simp [ho]
        rw [e1]
        have hb := (wakeOne_ok wasWr x a w.write nr nw hm).1
        have hm' : Match a' (nr + (if w.write then 0 else 1) + (if false && !wasWr then 1 else 0))
            (nw + (if w.write then 1 else 0) + (if false && wasWr then 1 else 0)) := by
          simpa using (wakeOne_ok wasWr x a w.write nr nw hm).2 a' ho
        have h := ih a' false _ _ hm' (by intro _; cases w.write <;> simp <;> omega)
        have hr : readers e (w :: (wakeLoop e wasWr a' false ws).woken) =
            (if w.write then 0 else 1) + readers e (wakeLoop e wasWr a' false ws).woken := by
          rw [readers_cons]; cases w.write <;> simp [hw] <;> omega
        have hwr : writers e (w :: (wakeLoop e wasWr a' false ws).woken) =
            (if w.write then 1 else 0) + writers e (wakeLoop e wasWr a' false ws).woken := by
          rw [writers_cons]; cases w.write <;> simp [hw] <;> omega
        have hxf : (wakeLoop e wasWr a' false ws).exchanged = false := by
          cases hh : (wakeLoop e wasWr a' false ws).exchanged
          · rfl
          · exact absurd (h.exch hh).1 (by simp)
        refine ⟨?_, ?_, ?_, ?_, ?_, ?_, ?_, ?_, ?_, ?_, ?_⟩
        · simp only [hb, h.bug, Bool.or_self]
        · have := h.acc
          simp only [hr, hwr, ← Nat.add_assoc]
          exact this
        · simp only [of_cons_eq hw, h.split, List.cons_append]
        · intro f hf
          rw [of_cons_ne (by rw [hw]; exact Ne.symm hf)]
          exact h.other f hf
        · exact h.sub.cons w
        · intro hh; simp only [hxf] at hh; exact absurd hh (by simp)
        · intro _
          simp only [hr, hwr]
          cases w.write <;> simp <;> omega
        · intro hh; simp only [hxf] at hh; exact absurd hh (by simp)
        · exact h.stuck
        · intro p; simp only [List.countP_cons]; rw [h.count p]; omega
        · intro v hv
          rcases List.mem_cons.1 hv with h1 | h1
          · rw [h1]; exact hw
          · exact h.went v h1

/-- Invariant of the shared data.  `hd` asks that a reader never waits right behind readers,
which fails for a while after a waiting writer was dropped. -/
structure CI (hd : Prop) (c : Core) : Prop where
  acc : ∀ e, Match (c.access e) (readers e c.pend + readers e c.held)
    (writers e c.pend + writers e c.held)
  idle : ∀ e, c.access e = .rd 0 → of e c.wl = []
  head : hd → ∀ e n w, c.access e = .rd (n + 1) → (of e c.wl).head? = some w → w.write = true
  bug : c.bug = false
  order : ∀ e, (of e c.woken ++ of e c.wl).Sublist (of e c.arr)

theorem upd_same (f : Nat → Acc) (e : Nat) (a : Acc) : upd f e a e = a := by simp [upd]
theorem upd_ne (f : Nat → Acc) {e x : Nat} (a : Acc) (h : x ≠ e) : upd f e a x = f x := by
  simp [upd, h]

/-- Adding a holder to a line: what must be known about the new access word. -/
theorem ci_grant {hd : Prop} {c : Core} (h : CI hd c) (t : Tok) (a : Acc)
    (hm : ∀ nr nw, Match (c.access t.entry) nr nw →
      Match a (nr + if t.write then 0 else 1) (nw + if t.write then 1 else 0))
    (hq : of t.entry c.wl = []) :
    CI hd { c with access := upd c.access t.entry a, held := c.held ++ [t] } := by
  refine ⟨?_, ?_, ?_, h.bug, h.order⟩
  · intro e
    by_cases he : e = t.entry
    · subst he
      have := hm _ _ (h.acc t.entry)
      simp only [upd_same, readers_append, writers_append, readers_cons, writers_cons,
        readers_nil, writers_nil]
      cases hw : t.write <;> simp_all [← Nat.add_assoc]
    · simp only [upd_ne _ _ he, readers_append, writers_append, readers_cons, writers_cons,
        readers_nil, writers_nil, if_neg (fun hh : t.entry = e ∧ _ => he hh.1.symm)]
      exact h.acc e
  · intro e
    by_cases he : e = t.entry
    · subst he; intro _; exact hq
    · simp only [upd_ne _ _ he]; exact h.idle e
  · intro hd e n w
    by_cases he : e = t.entry
    · subst he; intro _ hh; simp only [hq] at hh; exact absurd hh (by simp)
    · simp only [upd_ne _ _ he]; exact h.head hd e n w

theorem ci_tryIdle {hd : Prop} {c c' : Core} (h : CI hd c) (t : Tok) (ht : tryIdle c t = some c') : CI hd c' := by
  unfold tryIdle at ht
  split at ht
  · rename_i hi
    cases ht
    refine ci_grant h t _ ?_ (h.idle _ hi)
    intro nr nw hm
    rw [hi] at hm
    cases t.write <;> simp_all [Match]
  · exact absurd ht (by simp)

theorem ci_enqueue {hd : Prop} {c : Core} (h : CI hd c) (t : Tok) (hi : c.access t.entry ≠ .rd 0)
    (hh : ∀ n, c.access t.entry = .rd (n + 1) → of t.entry c.wl = [] → t.write = true) :
    CI hd (enqueue c t) := by
  refine ⟨h.acc, ?_, ?_, h.bug, ?_⟩
  · intro e he
    simp only [enqueue, of_append]
    by_cases hte : t.entry = e
    · subst hte; exact absurd he hi
    · rw [of_cons_ne hte]; simpa using h.idle e he
  · intro hd e n w he hw
    simp only [enqueue, of_append] at hw
    by_cases hte : t.entry = e
    · subst hte
      rw [of_cons_eq rfl] at hw
      cases hq : of t.entry c.wl with
      | nil =>
        rw [hq] at hw
        simp at hw; subst hw
        exact hh n he hq
      | cons v vs =>
        rw [hq] at hw
        simp at hw; subst hw
        exact h.head hd t.entry n v he (by rw [hq]; rfl)
    · rw [of_cons_ne hte] at hw
      exact h.head hd e n w he (by simpa using hw)
  · intro e
    simp only [enqueue, of_append, ← List.append_assoc]
    exact (h.order e).append (List.Sublist.refl _)

theorem tryIdle_none {c : Core} {t : Tok} (h : tryIdle c t = none) : c.access t.entry ≠ .rd 0 := by
  intro hi
  simp [tryIdle, hi] at h

theorem all_ne_iff {c : Core} {e : Nat} :
    c.wl.all (fun w => w.entry != e) = true ↔ of e c.wl = [] := by
  simp [of]

theorem ci_lockSection {hd : Prop} {c : Core} (h : CI hd c) (t : Tok) : CI hd (lockSection c t).1 := by
  unfold lockSection
  split
  · rename_i hw
    unfold lockSectionWr
    split
    · rename_i c' hc
      exact ci_tryIdle h t hc
    · rename_i hc
      exact ci_enqueue h t (tryIdle_none hc) (fun _ _ _ => hw)
  · rename_i hw
    unfold lockSectionRd
    split
    · rename_i ha
      rw [all_ne_iff] at ha
      split
      · rename_i n hn
        refine ci_grant h t _ ?_ ha
        intro nr nw hm
        rw [hn] at hm
        simp_all [Match]
      · rename_i hn
        refine ci_enqueue h t (by rw [hn]; simp) (fun n hn' => ?_)
        rw [hn] at hn'; exact absurd hn' (by simp)
    · rename_i ha
      rw [all_ne_iff] at ha
      exact ci_enqueue h t (fun hi => ha (h.idle _ hi)) (fun _ _ hq => absurd hq ha)

theorem readers_erase {e : Nat} {t : Tok} {l : List Tok} (h : t ∈ l) :
    readers e l = readers e (l.erase t) + (if t.entry = e ∧ t.write = false then 1 else 0) := by
  have := (List.perm_cons_erase h).countP_eq (fun t => t.entry == e && !t.write)
  simp only [readers]
  rw [this, List.countP_cons]
  simp
theorem writers_erase {e : Nat} {t : Tok} {l : List Tok} (h : t ∈ l) :
    writers e l = writers e (l.erase t) + (if t.entry = e ∧ t.write = true then 1 else 0) := by
  have := (List.perm_cons_erase h).countP_eq (fun t => t.entry == e && t.write)
  simp only [writers]
  rw [this, List.countP_cons]
  simp

/-- The loop run by an unlock, with the other holders counted from the invariant. -/
theorem unlock_wake {hd : Prop} {c : Core} (h : CI hd c) {t : Tok} (ht : t ∈ c.held) :
    WakeSpec t.entry t.write true c.wl
      (readers t.entry c.pend + readers t.entry (c.held.erase t))
      (writers t.entry c.pend + writers t.entry (c.held.erase t))
      (wakeLoop t.entry t.write (c.access t.entry) true c.wl) := by
  apply wake_spec
  · have := h.acc t.entry
    rw [readers_erase ht, writers_erase ht] at this
    cases hw : t.write <;> simp_all [← Nat.add_assoc]
  · simp

theorem readers_ne {e : Nat} {l : List Tok} (h : ∀ w ∈ l, w.entry ≠ e) : readers e l = 0 := by
  simp only [readers, List.countP_eq_zero]
  intro w hw
  simp [h w hw]
theorem writers_ne {e : Nat} {l : List Tok} (h : ∀ w ∈ l, w.entry ≠ e) : writers e l = 0 := by
  simp only [writers, List.countP_eq_zero]
  intro w hw
  simp [h w hw]
theorem of_eq_self {e : Nat} {l : List Tok} (h : ∀ w ∈ l, w.entry = e) : of e l = l := by
  simp only [of, List.filter_eq_self]
  intro w hw
  simp [h w hw]
theorem of_ne_nil {e : Nat} {l : List Tok} (h : ∀ w ∈ l, w.entry ≠ e) : of e l = [] := by
  simp only [of, List.filter_eq_nil_iff]
  intro w hw
  simp [h w hw]

theorem ci_unlockSection {hd : Prop} {c : Core} (h : CI hd c) {t : Tok} (ht : t ∈ c.held) :
    CI hd (unlockSection c t) := by
  have hw := unlock_wake h ht
  generalize hr : wakeLoop t.entry t.write (c.access t.entry) true c.wl = r at hw
  have e1 : unlockSection c t = { c with
      access := upd c.access t.entry
        (if r.exchanged then unlockEntry t.write r.acc else (r.acc, false)).1
      wl := r.rest
      pend := c.pend ++ r.woken
      woken := c.woken ++ r.woken
      held := c.held.erase t
      bug := c.bug || r.bug ||
        (if r.exchanged then unlockEntry t.write r.acc else (r.acc, false)).2 } := by
    subst hr; rfl
  rw [e1]
  have hne : ∀ e, e ≠ t.entry → ∀ w ∈ r.woken, w.entry ≠ e :=
    fun e he w hwm => by rw [hw.went w hwm]; exact Ne.symm he
  refine ⟨?_, ?_, ?_, ?_, ?_⟩
  · intro e
    by_cases he : e = t.entry
    · subst he
      simp only [upd_same, readers_append, writers_append]
      have ha := hw.acc
      cases hx : r.exchanged
      · simp only [hx, Bool.false_and, if_false, Bool.false_eq_true, Nat.add_zero] at ha ⊢
        have e1 : readers t.entry c.pend + readers t.entry (c.held.erase t) +
          readers t.entry r.woken = readers t.entry c.pend + readers t.entry r.woken +
          readers t.entry (c.held.erase t) := by omega
        have e2 : writers t.entry c.pend + writers t.entry (c.held.erase t) +
          writers t.entry r.woken = writers t.entry c.pend + writers t.entry r.woken +
          writers t.entry (c.held.erase t) := by omega
        rw [← e1, ← e2]; exact ha
      · have hwk := (hw.exch hx).2
        rw [hx, hwk] at ha
        simp only [hwk, readers_nil, writers_nil, Nat.add_zero, if_true]
        cases hww : t.write <;> cases hacc : r.acc <;> simp_all [Match, unlockEntry]
        rename_i n
        obtain ⟨h1, h2⟩ := ha
        subst h1
        simp
    · simp only [upd_ne _ _ he, readers_append, writers_append, readers_ne (hne e he),
        writers_ne (hne e he)]
      have := h.acc e
      rw [readers_erase ht, writers_erase ht] at this
      simp only [if_neg (fun hh : t.entry = e ∧ _ => he hh.1.symm)] at this
      exact this
  · intro e
    by_cases he : e = t.entry
    · subst he
      simp only [upd_same]
      intro hi
      cases hx : r.exchanged
      · simp only [hx, if_false, Bool.false_eq_true] at hi
        have ha := hw.acc
        have hb := hw.busy hx
        simp only [hx, hi, Match, Bool.false_and, if_false, Bool.false_eq_true] at ha
        omega
      · simp only [hx, if_true] at hi
        cases hq : of t.entry r.rest with
        | nil => rfl
        | cons w ws =>
          obtain ⟨_, h2, h3⟩ := hw.stuckX hx w (by rw [hq]; rfl)
          have ha := hw.acc
          rw [hx] at ha
          rw [h2] at hi ha
          exfalso
          cases hacc : r.acc with
          | wr => rw [hacc] at hi; simp [unlockEntry] at hi
          | rd n =>
            rw [hacc] at hi h3 ha
            cases n with
            | zero => simp [Match] at ha
            | succ n =>
              simp [unlockEntry] at hi
              subst hi
              exact h3 rfl
    · simp only [upd_ne _ _ he]
      intro hi
      rw [hw.other e he]; exact h.idle e hi
  · intro hd e n w
    by_cases he : e = t.entry
    · subst he
      simp only [upd_same]
      intro hi hh
      cases hx : r.exchanged
      · simp only [hx, if_false, Bool.false_eq_true] at hi
        rcases hw.stuck hx w hh with h1 | h1
        · exact h1
        · rw [h1] at hi; exact absurd hi (by simp)
      · exact (hw.stuckX hx w hh).1
    · simp only [upd_ne _ _ he, hw.other e he]
      exact h.head hd e n w
  · simp only [h.bug, hw.bug, Bool.or_self, Bool.false_or]
    have ha := hw.acc
    cases hx : r.exchanged
    · rfl
    · rw [hx] at ha
      simp only [if_true]
      cases hww : t.write <;> cases hacc : r.acc <;> simp_all [Match, unlockEntry]
      rename_i n
      cases n with
      | zero => omega
      | succ n => rfl
  · intro e
    by_cases he : e = t.entry
    · subst he
      simp only [of_append, of_eq_self hw.went, List.append_assoc]
      rw [← hw.split]
      exact h.order t.entry
    · simp only [of_append, of_ne_nil (hne e he), hw.other e he, List.append_nil]
      exact h.order e

theorem ci_removeWaiter {c : Core} (h : CI False c) (B : Nat → Nat) (b r : Nat) :
    CI False (removeWaiter B c b r) := by
  have hs : (removeWaiter B c b r).wl.Sublist c.wl := List.eraseP_sublist
  refine ⟨h.acc, ?_, fun hf => hf.elim, h.bug, ?_⟩
  · intro e he
    have h1 : (of e (removeWaiter B c b r).wl).Sublist (of e c.wl) := hs.filter _
    rw [h.idle e he] at h1
    simpa using h1
  · intro e
    exact ((List.Sublist.refl _).append (hs.filter _)).trans (h.order e)

theorem ci_notify {hd : Prop} {c : Core} (h : CI hd c) {t : Tok} (ht : t ∈ c.pend) :
    CI hd (notifyCore c t) := by
  refine ⟨?_, h.idle, h.head, h.bug, h.order⟩
  intro e
  have := h.acc e
  rw [readers_erase ht, writers_erase ht] at this
  simp only [notifyCore, readers_append, writers_append, readers_cons, writers_cons,
    readers_nil, writers_nil]
  have e1 : ∀ a b d : Nat, a + (b + (0 + d)) = a + d + b := by intros; omega
  rw [e1, e1]; exact this

/-- Every step keeps the invariant of the shared data.  The part about waiting readers needs
that no allocation fails. -/
theorem ci_step {B : Nat → Nat} {nomem : List (Option Nat) → Prop} {hd : Prop}
    (hn : hd → ∀ es, ¬ nomem es) {s s' : State}
    (hpc : hd → ∀ q ∈ s.reqs, ∀ k, q.pc ≠ .err k)
    (h : CI hd s.core) (st : Step B nomem s s') :
    CI hd s'.core ∧ (hd → ∀ q ∈ s'.reqs, ∀ k, q.pc ≠ .err k) := by
  have key : ∀ (r : Nat) (q' : Req) (q : Req), q ∈ s.reqs.set r q' → q = q' ∨ q ∈ s.reqs :=
    fun r q' q hq => (List.mem_or_eq_of_mem_set hq).symm
  have put : ∀ (r : Nat) (q' : Req), (∀ k, q'.pc ≠ .err k) →
      (hd → ∀ q ∈ s.reqs.set r q', ∀ k, q.pc ≠ .err k) := by
    intro r q' hq' hh q hq k
    rcases key r q' q hq with h1 | h1
    · rw [h1]; exact hq' k
    · exact hpc hh q h1 k
  cases st with
  | start r q w to es h1 h2 h3 => exact ⟨h, put _ _ (by simp)⟩
  | fastSkip r q i h1 h2 h3 => exact ⟨h, put _ _ (by simp)⟩
  | fastOk r q i e c h1 h2 h3 h4 => exact ⟨ci_tryIdle h _ h4, put _ _ (by simp)⟩
  | fastFail r q i e h1 h2 h3 h4 => exact ⟨h, put _ _ (by simp)⟩
  | fastDone r q h1 h2 => exact ⟨h, put _ _ (by simp)⟩
  | rollSkip r q k h1 h2 h3 => exact ⟨h, put _ _ (by simp)⟩
  | rollUnlock r q k e h1 h2 h3 h4 h5 => exact ⟨ci_unlockSection h h4, put _ _ (by simp)⟩
  | rollDone r q h1 h2 => exact ⟨h, put _ _ (by intro k; split <;> simp)⟩
  | mutex r q h1 h2 h3 => exact ⟨h, put _ _ (by simp)⟩
  | slowSkip r q i h1 h2 h3 => exact ⟨h, put _ _ (by simp)⟩
  | slowTry r q i e c h1 h2 h3 h4 => exact ⟨ci_tryIdle h _ h4, put _ _ (by simp)⟩
  | slowAlloc r q i e h1 h2 h3 h4 => exact ⟨h, put _ _ (by simp)⟩
  | slowNoMem r q i e h1 h2 h3 h4 h5 => exact ⟨h, fun hh => absurd h5 (hn hh _)⟩
  | enqGot r q i e h1 h2 h3 h4 h5 => exact ⟨ci_lockSection h _, put _ _ (by simp)⟩
  | enqWait r q i e h1 h2 h3 h4 h5 => exact ⟨ci_lockSection h _, put _ _ (by simp)⟩
  | slowGot r q i h1 h2 => exact ⟨h, put _ _ (by simp)⟩
  | slowEnd r q h1 h2 => exact ⟨h, put _ _ (by simp)⟩
  | finalOwned r q h1 h2 h3 => exact ⟨h, put _ _ (by simp)⟩
  | finalWait r q h1 h2 h3 => exact ⟨h, put _ _ (by simp)⟩
  | errSkip r q k h1 h2 h3 =>
    exact ⟨h, fun hh => absurd h2 (hpc hh q (List.mem_of_getElem? h1) _)⟩
  | errUnlock r q k e h1 h2 h3 h4 h5 =>
    exact ⟨ci_unlockSection h h4, fun hh => absurd h2 (hpc hh q (List.mem_of_getElem? h1) _)⟩
  | errRemove r q k e h1 h2 h3 h4 h5 =>
    have hh : ¬ hd := fun hh => absurd h2 (hpc hh q (List.mem_of_getElem? h1) _)
    have h' : CI False s.core := ⟨h.acc, h.idle, fun hf => hf.elim, h.bug, h.order⟩
    have h'' := ci_removeWaiter h' B (B e) r
    exact ⟨⟨h''.acc, h''.idle, fun hf => absurd hf hh, h''.bug, h''.order⟩,
      fun hf => absurd hf hh⟩
  | errDone r q h1 h2 => exact ⟨h, put _ _ (by simp)⟩
  | notify t q h1 h2 =>
    refine ⟨ci_notify h h1, fun hh => put _ _ ?_ hh⟩
    intro k
    have := hpc hh q (List.mem_of_getElem? h2) k
    unfold notifyReq; split
    · simp
    · exact this
  | unlockStart r q h1 h2 => exact ⟨h, put _ _ (by simp)⟩
  | unlockSkip r q k h1 h2 h3 h4 => exact ⟨h, put _ _ (by simp)⟩
  | unlockDo r q k e h1 h2 h3 h4 h5 => exact ⟨ci_unlockSection h h4, put _ _ (by simp)⟩
  | unlockDone r q h1 h2 => exact ⟨h, put _ _ (by simp)⟩

end Verif.Alock
