import Verif.Lemma.Alock

/-! Request level invariant of the cache line lock: where the tokens of a request are at each
program point, and what `lock_remaining` counts. -/

namespace Verif.Alock

/-- All tokens that exist: queued, woken and granted. -/
def toks (c : Core) : List Tok := c.wl ++ c.pend ++ c.held
/-- Tokens whose request has not been told yet. -/
def wlp (c : Core) : List Tok := c.wl ++ c.pend
/-- Tokens of index `j` of request `r`. -/
def N (c : Core) (r j : Nat) : Nat := (toks c).countP (fun t => t.req == r && t.idx == j)
/-- Tokens of request `r` still to be notified. -/
def W (c : Core) (r : Nat) : Nat := (wlp c).countP (fun t => t.req == r)

theorem N_cons {c c' : Core} {t : Tok} (h : (toks c').Perm (t :: toks c)) (r j : Nat) :
    N c' r j = N c r j + if t.req = r ∧ t.idx = j then 1 else 0 := by
  unfold N; rw [h.countP_eq, List.countP_cons]; simp
theorem N_same {c c' : Core} (h : (toks c').Perm (toks c)) (r j : Nat) :
    N c' r j = N c r j := by
  unfold N; rw [h.countP_eq]
theorem W_cons {c c' : Core} {t : Tok} (h : (wlp c').Perm (t :: wlp c)) (r : Nat) :
    W c' r = W c r + if t.req = r then 1 else 0 := by
  unfold W; rw [h.countP_eq, List.countP_cons]; simp
theorem W_same {c c' : Core} (h : (wlp c').Perm (wlp c)) (r : Nat) : W c' r = W c r := by
  unfold W; rw [h.countP_eq]

theorem N_pos {c : Core} {t : Tok} (h : t ∈ toks c) : 0 < N c t.req t.idx := by
  unfold N; rw [List.countP_pos_iff]; exact ⟨t, h, by simp⟩
theorem W_pos {c : Core} {t : Tok} (h : t ∈ wlp c) : 0 < W c t.req := by
  unfold W; rw [List.countP_pos_iff]; exact ⟨t, h, by simp⟩
theorem N_pos_iff {c : Core} {r j : Nat} :
    0 < N c r j ↔ ∃ t ∈ toks c, t.req = r ∧ t.idx = j := by
  unfold N; rw [List.countP_pos_iff]; simp
theorem W_pos_iff {c : Core} {r : Nat} : 0 < W c r ↔ ∃ t ∈ wlp c, t.req = r := by
  unfold W; rw [List.countP_pos_iff]; simp
theorem wlp_sub {c : Core} {t : Tok} (h : t ∈ wlp c) : t ∈ toks c :=
  List.mem_append_left _ h
theorem W_zero {c : Core} {r : Nat} (h : ∀ j, N c r j = 0) : W c r = 0 := by
  rcases Nat.eq_zero_or_pos (W c r) with h1 | h1
  · exact h1
  · obtain ⟨t, ht, hr⟩ := W_pos_iff.1 h1
    have := N_pos (wlp_sub ht)
    rw [hr, h t.idx] at this
    omega

/-! Effect of the sections on the tokens. -/

theorem tryIdle_eff {c c' : Core} {t : Tok} (h : tryIdle c t = some c') :
    (toks c').Perm (t :: toks c) ∧ c'.wl = c.wl ∧ c'.pend = c.pend ∧ c'.held = c.held ++ [t]
      ∧ c.access t.entry = .rd 0 := by
  unfold tryIdle at h
  split at h
  · rename_i hi
    cases h
    refine ⟨?_, rfl, rfl, rfl, hi⟩
    simp only [toks, ← List.append_assoc]
    exact List.perm_append_singleton _ _
  · exact absurd h (by simp)

theorem lockSection_true {c : Core} {t : Tok} (h : (lockSection c t).2 = true) :
    (toks (lockSection c t).1).Perm (t :: toks c) ∧ (lockSection c t).1.wl = c.wl ∧
      (lockSection c t).1.pend = c.pend ∧ (lockSection c t).1.held = c.held ++ [t] ∧
      (c.access t.entry = .rd 0 ∨ of t.entry c.wl = []) := by
  unfold lockSection at h ⊢
  split at h
  · rename_i hw
    rw [if_pos hw]
    unfold lockSectionWr at h ⊢
    split at h
    · rename_i c' hc
      obtain ⟨h1, h2, h3, h4, h5⟩ := tryIdle_eff hc
      exact ⟨h1, h2, h3, h4, .inl h5⟩
    · exact absurd h (by simp)
  · rename_i hw
    rw [if_neg hw]
    unfold lockSectionRd at h ⊢
    split at h
    · rename_i ha
      rw [if_pos ha]
      split at h
      · refine ⟨?_, rfl, rfl, rfl, .inr (all_ne_iff.1 ha)⟩
        simp only [toks, ← List.append_assoc]
        exact List.perm_append_singleton _ _
      · exact absurd h (by simp)
    · exact absurd h (by simp)

theorem lockSection_false {c : Core} {t : Tok} (h : (lockSection c t).2 = false) :
    (lockSection c t).1 = enqueue c t := by
  unfold lockSection at h ⊢
  split at h
  · rename_i hw
    rw [if_pos hw]
    unfold lockSectionWr at h ⊢
    split at h
    · exact absurd h (by simp)
    · rfl
  · rename_i hw
    rw [if_neg hw]
    unfold lockSectionRd at h ⊢
    split at h
    · rename_i ha
      rw [if_pos ha]
      split at h
      · exact absurd h (by simp)
      · rfl
    · rename_i ha
      rw [if_neg ha]

theorem enqueue_eff (c : Core) (t : Tok) :
    (toks (enqueue c t)).Perm (t :: toks c) ∧ (wlp (enqueue c t)).Perm (t :: wlp c) := by
  simp only [toks, wlp, enqueue]
  have : (c.wl ++ [t] ++ c.pend).Perm (t :: (c.wl ++ c.pend)) := by
    rw [← List.cons_append]
    exact (List.perm_append_singleton _ _).append_right _
  refine ⟨?_, this⟩
  rw [← List.cons_append]
  exact this.append_right _

theorem perm_of_counts {l m : List Tok} (h : ∀ p : Tok → Bool, l.countP p = m.countP p) :
    l.Perm m := by
  rw [List.perm_iff_count]
  intro a
  exact h _

theorem unlock_eff {hd : Prop} {c : Core} (h : CI hd c) {t : Tok} (ht : t ∈ c.held) :
    (toks c).Perm (t :: toks (unlockSection c t)) ∧ (wlp (unlockSection c t)).Perm (wlp c) := by
  have hw := unlock_wake h ht
  have h2 : (wlp (unlockSection c t)).Perm (wlp c) := by
    apply perm_of_counts
    intro p
    simp only [wlp, unlockSection, List.countP_append]
    rw [hw.count p]; omega
  refine ⟨?_, h2⟩
  have e1 : toks (unlockSection c t) = wlp (unlockSection c t) ++ c.held.erase t := rfl
  have e2 : toks c = wlp c ++ c.held := rfl
  rw [e1, e2]
  have p1 : (wlp c ++ c.held).Perm (wlp c ++ (t :: c.held.erase t)) :=
    (List.perm_cons_erase ht).append_left _
  have p2 : (wlp c ++ (t :: c.held.erase t)).Perm (t :: (wlp c ++ c.held.erase t)) :=
    List.perm_middle
  exact p1.trans (p2.trans ((h2.symm.append_right _).cons t))

theorem notify_eff {c : Core} {t : Tok} (ht : t ∈ c.pend) :
    (toks (notifyCore c t)).Perm (toks c) ∧
    (wlp c).Perm (t :: wlp (notifyCore c t)) := by
  have p1 : (c.wl ++ c.pend).Perm (t :: (c.wl ++ c.pend.erase t)) :=
    ((List.perm_cons_erase ht).append_left _).trans List.perm_middle
  refine ⟨?_, p1⟩
  simp only [toks, notifyCore, ← List.append_assoc]
  refine (List.perm_append_singleton _ _).trans ?_
  rw [← List.cons_append]
  exact p1.symm.append_right _

/-- Index `j` needs a lock. -/
def need (q : Req) (j : Nat) : Bool :=
  match q.entries[j]? with
  | some (some _) => true
  | _ => false

/-- Invariant of one request, by program point; `n j` is the number of tokens of index `j`,
`w` the number of tokens that still have to be notified. -/
def RInv (B : Nat → Nat) (q : Req) (n : Nat → Nat) (w : Nat) : Prop :=
  match q.pc with
  | .idle => (∀ j, n j = 0) ∧ w = 0 ∧ q.remaining = 0
  | .fast i => i ≤ q.entries.length ∧ (∀ j, n j = if j < i ∧ need q j then 1 else 0) ∧ w = 0 ∧
      q.remaining = 0 ∧ q.resumed = 0
  | .roll k => (∀ j, n j ≤ 1) ∧ (∀ j, k ≤ j ∨ need q j = false → n j = 0) ∧ w = 0 ∧
      q.remaining = 0 ∧ q.resumed = 0
  | .mutexWait => (∀ j, n j = 0) ∧ w = 0 ∧ q.remaining = 0 ∧ q.resumed = 0
  | .slow i => i ≤ q.entries.length ∧ (∀ j, n j = if j < i ∧ need q j then 1 else 0) ∧
      q.remaining + i = q.entries.length + 1 + w ∧ q.resumed = 0
  | .enq i => i < q.entries.length ∧ (∀ j, n j = if j < i ∧ need q j then 1 else 0) ∧
      q.remaining + i = q.entries.length + 1 + w ∧ q.resumed = 0 ∧ need q i = true
  | .got i => i < q.entries.length ∧ (∀ j, n j = if j < i + 1 ∧ need q j then 1 else 0) ∧
      q.remaining + i = q.entries.length + 1 + w ∧ q.resumed = 0
  | .err k => (∀ j, n j ≤ 1) ∧ (∀ j, k ≤ j ∨ need q j = false → n j = 0) ∧
      w + 2 ≤ q.remaining ∧ q.resumed = 0 ∧ distinctBuckets B q.entries ∧
      k ≤ q.entries.length
  | .final => (∀ j, n j = if need q j then 1 else 0) ∧ q.remaining = 1 + w ∧ q.resumed = 0
  | .waiting => (∀ j, n j = if need q j then 1 else 0) ∧ q.remaining = w ∧ 0 < w ∧
      q.resumed = 0
  | .owned => (∀ j, n j = if need q j then 1 else 0) ∧ w = 0 ∧ q.remaining = 0 ∧ q.resumed = 1
  | .unlock k => k ≤ q.entries.length ∧ (∀ j, n j = if k ≤ j ∧ need q j then 1 else 0) ∧
      w = 0 ∧ q.remaining = 0 ∧ q.resumed = 1

/-- Tokens carry the data of their request. -/
def TokOK (c : Core) (reqs : List Req) : Prop :=
  ∀ t ∈ toks c, ∃ q, reqs[t.req]? = some q ∧ q.entries[t.idx]? = some (some t.entry) ∧
    t.write = q.write

/-- Request level invariant. -/
structure GInv (B : Nat → Nat) (s : State) : Prop where
  ci : CI False s.core
  tok : TokOK s.core s.reqs
  req : ∀ (r : Nat) (q : Req), s.reqs[r]? = some q → RInv B q (N s.core r) (W s.core r)
  dist : ∀ (r : Nat) (q : Req), s.reqs[r]? = some q → distinctLines q.entries
  mutex : ∀ (r r' : Nat) (q q' : Req), s.reqs[r]? = some q → s.reqs[r']? = some q' →
    q.pc.inMutex = true → q'.pc.inMutex = true → r = r'
  bug : s.bug = false

theorem need_some {q : Req} {i e : Nat} (h : q.entries[i]? = some (some e)) :
    need q i = true := by simp [need, h]
theorem need_none {q : Req} {i : Nat} (h : q.entries[i]? = some none) :
    need q i = false := by simp [need, h]
theorem need_len {q : Req} {j : Nat} (h : q.entries.length ≤ j) : need q j = false := by
  simp [need, List.getElem?_eq_none h]
theorem need_true {q : Req} {j : Nat} (h : need q j = true) :
    ∃ e, q.entries[j]? = some (some e) := by
  unfold need at h
  split at h
  · rename_i e he; exact ⟨e, he⟩
  · exact absurd h (by simp)

theorem lt_of_some {q : Req} {i : Nat} {x : Option Nat} (h : q.entries[i]? = some x) :
    i < q.entries.length := (List.getElem?_eq_some_iff.1 h).1

theorem fill_skip {q : Req} {n : Nat → Nat} {i : Nat} (hi : need q i = false)
    (h : ∀ j, n j = if j < i ∧ need q j then 1 else 0) (j : Nat) :
    n j = if j < i + 1 ∧ need q j then 1 else 0 := by
  rw [h j]
  by_cases hj : j = i
  · subst hj; simp [hi]
  · have : j < i ↔ j < i + 1 := by omega
    simp [this]

theorem fill_add {q : Req} {n n' : Nat → Nat} {i r : Nat} (hi : need q i = true)
    (h : ∀ j, n j = if j < i ∧ need q j then 1 else 0)
    (h' : ∀ j, n' j = n j + if r = r ∧ i = j then 1 else 0) (j : Nat) :
    n' j = if j < i + 1 ∧ need q j then 1 else 0 := by
  rw [h' j, h j]
  by_cases hj : i = j
  · subst hj; simp [hi]
  · have : j < i ↔ j < i + 1 := by omega
    simp [this, hj]

theorem fill_full {q : Req} {n : Nat → Nat}
    (h : ∀ j, n j = if j < q.entries.length ∧ need q j then 1 else 0) (j : Nat) :
    n j = if need q j then 1 else 0 := by
  rw [h j]
  by_cases hj : j < q.entries.length
  · simp [hj]
  · simp [need_len (Nat.le_of_not_lt hj)]

/-- Storing a request and a new core: the obligations that remain. -/
theorem ginv_put {B : Nat → Nat} {s : State} (g : GInv B s) {r : Nat} {q q' : Req} {c : Core}
    (hq : s.reqs[r]? = some q) (hc : CI False c)
    (htok : ∀ t ∈ toks c, t ∈ toks s.core ∨ (t.req = r ∧ t.write = q.write ∧
      q.entries[t.idx]? = some (some t.entry)))
    (hent : q'.entries = q.entries ∧ q'.write = q.write ∨
      ((∀ j, N c r j = 0) ∧ distinctLines q'.entries))
    (hN : ∀ r0, r0 ≠ r → ∀ j, N c r0 j = N s.core r0 j)
    (hW : ∀ r0, r0 ≠ r → W c r0 = W s.core r0)
    (hr : RInv B q (N s.core r) (W s.core r) → RInv B q' (N c r) (W c r))
    (hm : q'.pc.inMutex = true → q.pc.inMutex = true ∨ mutexFree s)
    {b : Bool} (hb : RInv B q (N s.core r) (W s.core r) → b = false) {k : Nat} :
    GInv B ⟨c, s.reqs.set r q', k, b⟩ := by
  have hlt : r < s.reqs.length := (List.getElem?_eq_some_iff.1 hq).1
  have get : ∀ (r0 : Nat) (q0 : Req), (s.reqs.set r q')[r0]? = some q0 →
      (r0 = r ∧ q0 = q') ∨ (r0 ≠ r ∧ s.reqs[r0]? = some q0) := by
    intro r0 q0 h0
    by_cases h1 : r0 = r
    · subst h1
      rw [List.getElem?_set_self hlt] at h0
      exact .inl ⟨rfl, by simpa using h0.symm⟩
    · rw [List.getElem?_set_ne (Ne.symm h1)] at h0
      exact .inr ⟨h1, h0⟩
  refine ⟨hc, ?_, ?_, ?_, ?_, hb (g.req r q hq)⟩
  · intro t ht
    simp only at ht ⊢
    by_cases htr : t.req = r
    · rcases hent with ⟨h1, h2⟩ | ⟨h1, _⟩
      · refine ⟨q', ?_, ?_⟩
        · rw [htr, List.getElem?_set_self hlt]
        · rw [h1, h2]
          rcases htok t ht with h3 | ⟨_, h4, h5⟩
          · obtain ⟨q0, h6, h7, h8⟩ := g.tok t h3
            rw [htr, hq] at h6
            cases h6
            exact ⟨h7, h8⟩
          · exact ⟨h5, h4⟩
      · have := N_pos ht
        rw [htr, h1] at this
        omega
    · rcases htok t ht with h3 | ⟨h4, _⟩
      · obtain ⟨q0, h6, h7⟩ := g.tok t h3
        exact ⟨q0, by rw [List.getElem?_set_ne (Ne.symm htr)]; exact h6, h7⟩
      · exact absurd h4 htr
  · intro r0 q0 h0
    simp only at h0 ⊢
    rcases get r0 q0 h0 with ⟨h1, h2⟩ | ⟨h1, h2⟩
    · subst h1; subst h2; exact hr (g.req _ q hq)
    · have := g.req r0 q0 h2
      rw [show N c r0 = N s.core r0 from funext (hN r0 h1), hW r0 h1]
      exact this
  · intro r0 q0 h0
    rcases get r0 q0 h0 with ⟨h1, h2⟩ | ⟨h1, h2⟩
    · subst h2
      rcases hent with ⟨h3, _⟩ | ⟨_, h3⟩
      · rw [h3]; exact g.dist r q hq
      · exact h3
    · exact g.dist r0 q0 h2
  · intro r1 r2 q1 q2 h1 h2 h3 h4
    rcases get r1 q1 h1 with ⟨e1, e2⟩ | ⟨e1, e2⟩ <;> rcases get r2 q2 h2 with ⟨f1, f2⟩ | ⟨f1, f2⟩
    · rw [e1, f1]
    · subst e2
      rcases hm h3 with h5 | h5
      · rw [e1]; exact g.mutex r r2 q q2 hq f2 h5 h4
      · rw [h5 q2 (List.mem_of_getElem? f2)] at h4
        exact absurd h4 (by simp)
    · subst f2
      rcases hm h4 with h5 | h5
      · rw [f1]; exact g.mutex r1 r q1 q e2 hq h3 h5
      · rw [h5 q1 (List.mem_of_getElem? e2)] at h3
        exact absurd h3 (by simp)
    · exact g.mutex r1 r2 q1 q2 e2 f2 h3 h4

/-- Same shared data. -/
theorem ginv_put_same {B : Nat → Nat} {s : State} (g : GInv B s) {r : Nat} {q q' : Req}
    (hq : s.reqs[r]? = some q)
    (hent : q'.entries = q.entries ∧ q'.write = q.write)
    (hr : RInv B q (N s.core r) (W s.core r) → RInv B q' (N s.core r) (W s.core r))
    (hm : q'.pc.inMutex = true → q.pc.inMutex = true ∨ mutexFree s)
    {b : Bool} (hb : RInv B q (N s.core r) (W s.core r) → b = false) {k : Nat} :
    GInv B ⟨s.core, s.reqs.set r q', k, b⟩ :=
  ginv_put g hq g.ci (fun _ h => .inl h) (.inl hent) (fun _ _ _ => rfl) (fun _ _ => rfl) hr hm hb

/-- One token more, granted at once. -/
theorem ginv_put_grant {B : Nat → Nat} {s : State} (g : GInv B s) {r i e : Nat} {q q' : Req}
    {c : Core} (hq : s.reqs[r]? = some q) (he : q.entries[i]? = some (some e)) (hc : CI False c)
    (hp : (toks c).Perm (q.tok r e i :: toks s.core)) (h1 : c.wl = s.core.wl)
    (h2 : c.pend = s.core.pend)
    (hent : q'.entries = q.entries ∧ q'.write = q.write)
    (hr : RInv B q (N s.core r) (W s.core r) →
      (∀ j, N c r j = N s.core r j + if r = r ∧ i = j then 1 else 0) →
      RInv B q' (N c r) (W s.core r))
    (hm : q'.pc.inMutex = true → q.pc.inMutex = true) :
    GInv B ⟨c, s.reqs.set r q', s.clock, s.bug⟩ := by
  have hw : wlp c = wlp s.core := by simp [wlp, h1, h2]
  have hW : ∀ r0, W c r0 = W s.core r0 := fun r0 => W_same (by rw [hw]) r0
  refine ginv_put g hq hc ?_ (.inl hent) ?_ (fun r0 _ => hW r0) ?_ (fun h => .inl (hm h))
    (fun _ => g.bug)
  · intro t ht
    rcases List.mem_cons.1 (hp.mem_iff.1 ht) with h3 | h3
    · subst h3; exact .inr ⟨rfl, rfl, he⟩
    · exact .inl h3
  · intro r0 h0 j
    rw [N_cons hp]
    simp [Req.tok, Ne.symm h0]
  · intro h3
    rw [hW r]
    refine hr h3 (fun j => ?_)
    rw [N_cons hp]; rfl

/-- One token queued. -/
theorem ginv_put_enq {B : Nat → Nat} {s : State} (g : GInv B s) {r i e : Nat} {q q' : Req}
    (hq : s.reqs[r]? = some q) (he : q.entries[i]? = some (some e))
    (hc : CI False (enqueue s.core (q.tok r e i)))
    (hent : q'.entries = q.entries ∧ q'.write = q.write)
    (hr : RInv B q (N s.core r) (W s.core r) →
      (∀ j, N (enqueue s.core (q.tok r e i)) r j = N s.core r j + if r = r ∧ i = j then 1 else 0) →
      RInv B q' (N (enqueue s.core (q.tok r e i)) r) (W s.core r + 1))
    (hm : q'.pc.inMutex = true → q.pc.inMutex = true) :
    GInv B ⟨enqueue s.core (q.tok r e i), s.reqs.set r q', s.clock, s.bug⟩ := by
  obtain ⟨hp, hp2⟩ := enqueue_eff s.core (q.tok r e i)
  refine ginv_put g hq hc ?_ (.inl hent) ?_ ?_ ?_ (fun h => .inl (hm h)) (fun _ => g.bug)
  · intro t ht
    rcases List.mem_cons.1 (hp.mem_iff.1 ht) with h3 | h3
    · subst h3; exact .inr ⟨rfl, rfl, he⟩
    · exact .inl h3
  · intro r0 h0 j
    rw [N_cons hp]
    simp [Req.tok, Ne.symm h0]
  · intro r0 h0
    rw [W_cons hp2]
    simp [Req.tok, Ne.symm h0]
  · intro h3
    have : W (enqueue s.core (q.tok r e i)) r = W s.core r + 1 := by
      rw [W_cons hp2]; simp [Req.tok]
    rw [this]
    refine hr h3 (fun j => ?_)
    rw [N_cons hp]; rfl

/-- One granted token released. -/
theorem ginv_put_unlock {B : Nat → Nat} {s : State} (g : GInv B s) {r i e : Nat} {q q' : Req}
    (hq : s.reqs[r]? = some q)
    (ht : q.tok r e i ∈ s.core.held)
    (hent : q'.entries = q.entries ∧ q'.write = q.write)
    (hr : RInv B q (N s.core r) (W s.core r) →
      (∀ j, N s.core r j = N (unlockSection s.core (q.tok r e i)) r j +
        if r = r ∧ i = j then 1 else 0) →
      RInv B q' (N (unlockSection s.core (q.tok r e i)) r) (W s.core r))
    (hm : q'.pc.inMutex = true → q.pc.inMutex = true) :
    GInv B ⟨unlockSection s.core (q.tok r e i), s.reqs.set r q', s.clock, s.bug⟩ := by
  obtain ⟨hp, hp2⟩ := unlock_eff g.ci ht
  refine ginv_put g hq (ci_unlockSection g.ci ht) ?_ (.inl hent) ?_ ?_ ?_ (fun h => .inl (hm h))
    (fun _ => g.bug)
  · intro t ht
    exact .inl (hp.mem_iff.2 (List.mem_cons_of_mem _ ht))
  · intro r0 h0 j
    rw [N_cons hp]
    simp [Req.tok, Ne.symm h0]
  · intro r0 _
    exact W_same hp2 r0
  · intro h3
    rw [W_same hp2]
    refine hr h3 (fun j => ?_)
    rw [N_cons hp]; rfl

theorem inMutex_of {q : Req} {p : PC} (h : q.pc = p) (hp : p.inMutex = true) :
    q.pc.inMutex = true := by rw [h]; exact hp

/-- The token of an index is the expected one. -/
theorem tok_eq {B : Nat → Nat} {s : State} (g : GInv B s) {r k e : Nat} {q : Req}
    (hq : s.reqs[r]? = some q) (he : q.entries[k]? = some (some e)) {t : Tok}
    (ht : t ∈ toks s.core) (h1 : t.req = r) (h2 : t.idx = k) : t = q.tok r e k := by
  obtain ⟨q0, h3, h4, h5⟩ := g.tok t ht
  rw [h1, hq] at h3
  cases h3
  rw [h2, he] at h4
  cases t
  simp_all [Req.tok]

theorem held_of_N {B : Nat → Nat} {s : State} (g : GInv B s) {r k e : Nat} {q : Req}
    (hq : s.reqs[r]? = some q) (he : q.entries[k]? = some (some e))
    (hn : 0 < N s.core r k) (hw : W s.core r = 0) : q.tok r e k ∈ s.core.held := by
  obtain ⟨t, ht, h1, h2⟩ := N_pos_iff.1 hn
  have h3 := tok_eq g hq he ht h1 h2
  subst h3
  rcases List.mem_append.1 ht with h4 | h4
  · have := W_pos h4
    rw [h1, hw] at this
    omega
  · exact h4

theorem ginv_init (B : Nat → Nat) (n : Nat) : GInv B (State.init n) := by
  have hz : ∀ r, W (State.init n).core r = 0 := fun r => rfl
  have hn : ∀ r j, N (State.init n).core r j = 0 := fun r j => rfl
  have hq : ∀ (r : Nat) (q : Req), (State.init n).reqs[r]? = some q →
      q = ⟨false, false, [], 0, .idle, 0, 0⟩ := by
    intro r q h
    exact List.eq_of_mem_replicate (List.mem_of_getElem? h)
  refine ⟨⟨?_, ?_, ?_, rfl, ?_⟩, ?_, ?_, ?_, ?_, rfl⟩
  · intro e; exact ⟨rfl, rfl⟩
  · intro e _; rfl
  · intro h; exact h.elim
  · intro e; exact List.Sublist.refl _
  · intro t ht; exact absurd ht (by simp [toks, State.init])
  · intro r q h
    rw [hq r q h]
    exact ⟨hn r, hz r, rfl⟩
  · intro r q h
    rw [hq r q h]
    intro i j e h1; simp at h1
  · intro r r' q q' h _ h1
    rw [hq r q h] at h1
    exact absurd h1 (by decide)

/-- Executions in which the allocation of a waiter may only fail for requests whose lines are
in different buckets. -/
abbrev Calm (B : Nat → Nat) : State → State → Prop := Step B (distinctBuckets B)

theorem ginv_step {B : Nat → Nat} {s s' : State} (g : GInv B s) (st : Calm B s s') :
    GInv B s' := by
  have hci := (ci_step (hd := False) (fun h => h.elim) (fun h => h.elim) g.ci st).1
  cases st with
  | start r q w to es h1 h2 h3 =>
    have h0 := g.req r q h1
    simp only [RInv, h2] at h0
    refine ginv_put g h1 g.ci (fun _ h => .inl h) (.inr ⟨h0.1, h3⟩) (fun _ _ _ => rfl)
      (fun _ _ => rfl) ?_ (by simp [PC.inMutex]) (by simp [g.bug, h0.2.2])
    intro _
    exact ⟨Nat.zero_le _, fun j => by rw [h0.1 j]; simp, h0.2.1, h0.2.2, rfl⟩
  | fastSkip r q i h1 h2 h3 =>
    refine ginv_put_same g h1 (by exact ⟨rfl, rfl⟩) ?_ (by simp [PC.inMutex]) (fun _ => g.bug)
    intro h
    simp only [RInv, h2] at h
    exact ⟨lt_of_some h3, fill_skip (need_none h3) h.2.1, h.2.2⟩
  | fastOk r q i e c h1 h2 h3 h4 =>
    obtain ⟨p1, p2, p3, _⟩ := tryIdle_eff h4
    refine ginv_put_grant g h1 h3 (ci_tryIdle g.ci _ h4) p1 p2 p3 (by exact ⟨rfl, rfl⟩) ?_
      (by simp [PC.inMutex])
    intro h hN
    simp only [RInv, h2] at h
    exact ⟨lt_of_some h3, fill_add (need_some h3) h.2.1 hN, h.2.2⟩
  | fastFail r q i e h1 h2 h3 h4 =>
    refine ginv_put_same g h1 (by exact ⟨rfl, rfl⟩) ?_ (by simp [PC.inMutex]) (fun _ => g.bug)
    intro h
    simp only [RInv, h2] at h
    refine ⟨fun j => by rw [h.2.1 j]; split <;> omega, fun j hj => ?_, h.2.2⟩
    rw [h.2.1 j, if_neg]
    rintro ⟨a1, a2⟩
    rcases hj with hj | hj
    · omega
    · exact absurd (show need q j = false from hj) (by simp [a2])
  | fastDone r q h1 h2 =>
    refine ginv_put_same g h1 (by exact ⟨rfl, rfl⟩) ?_ (by simp [PC.inMutex]) (fun _ => g.bug)
    intro h
    simp only [RInv, h2] at h
    exact ⟨fill_full h.2.1, h.2.2.1, h.2.2.2.1, by simp [h.2.2.2.2]⟩
  | rollSkip r q k h1 h2 h3 =>
    refine ginv_put_same g h1 (by exact ⟨rfl, rfl⟩) ?_ (by simp [PC.inMutex]) (fun _ => g.bug)
    intro h
    simp only [RInv, h2] at h
    refine ⟨h.1, fun j hj => ?_, h.2.2⟩
    by_cases hjk : j = k
    · subst hjk
      cases hn : need q j
      · exact h.2.1 j (.inr hn)
      · obtain ⟨e, he⟩ := need_true hn
        rcases Nat.eq_zero_or_pos (N s.core r j) with h5 | h5
        · exact h5
        · exact absurd (held_of_N g h1 he h5 h.2.2.1) (h3 e he)
    · exact h.2.1 j (hj.imp (fun hj => by omega) id)
  | rollUnlock r q k e h1 h2 h3 h4 h5 =>
    refine ginv_put_unlock g h1 h4 (by exact ⟨rfl, rfl⟩) ?_ (by simp [PC.inMutex])
    intro h hN
    simp only [RInv, h2] at h
    refine ⟨fun j => ?_, fun j hj => ?_, h.2.2⟩
    · have := h.1 j; rw [hN j] at this; omega
    · by_cases hjk : k = j
      · subst hjk; have := h.1 k; rw [hN k] at this; simp at this; omega
      · have := h.2.1 j (hj.imp (fun hj => by omega) id)
        rw [hN j] at this; omega
  | rollDone r q h1 h2 =>
    refine ginv_put_same g h1 (by exact ⟨rfl, rfl⟩) ?_ ?_ (fun _ => g.bug)
    · intro h
      simp only [RInv, h2] at h
      have hz : ∀ j, N s.core r j = 0 := fun j => h.2.1 j (.inl (Nat.zero_le _))
      cases ht : q.tryOnly
      · exact ⟨hz, h.2.2⟩
      · exact ⟨hz, h.2.2.1, h.2.2.2.1⟩
    · cases q.tryOnly <;> simp [PC.inMutex]
  | mutex r q h1 h2 h3 =>
    refine ginv_put_same g h1 (by exact ⟨rfl, rfl⟩) ?_ (fun _ => .inr h3) ?_
    · intro h
      simp only [RInv, h2] at h
      refine ⟨Nat.zero_le _, fun j => by rw [h.1 j]; simp, ?_, h.2.2.2⟩
      simp [h.2.1]
    · intro h
      simp only [RInv, h2] at h
      simp [g.bug, h.2.2.1]
  | slowSkip r q i h1 h2 h3 =>
    refine ginv_put_same g h1 (by exact ⟨rfl, rfl⟩) ?_ (fun _ => .inl (inMutex_of h2 rfl)) (fun _ => g.bug)
    intro h
    simp only [RInv, h2] at h
    refine ⟨lt_of_some h3, fill_skip (need_none h3) h.2.1, ?_, h.2.2.2⟩
    have := h.2.2.1
    simp only; omega
  | slowTry r q i e c h1 h2 h3 h4 =>
    obtain ⟨p1, p2, p3, _⟩ := tryIdle_eff h4
    refine ginv_put_grant g h1 h3 (ci_tryIdle g.ci _ h4) p1 p2 p3 (by exact ⟨rfl, rfl⟩) ?_
      (fun _ => inMutex_of h2 rfl)
    intro h hN
    simp only [RInv, h2] at h
    exact ⟨lt_of_some h3, fill_add (need_some h3) h.2.1 hN, h.2.2⟩
  | slowAlloc r q i e h1 h2 h3 h4 =>
    refine ginv_put_same g h1 (by exact ⟨rfl, rfl⟩) ?_ (fun _ => .inl (inMutex_of h2 rfl)) (fun _ => g.bug)
    intro h
    simp only [RInv, h2] at h
    exact ⟨lt_of_some h3, h.2.1, h.2.2.1, h.2.2.2, need_some h3⟩
  | slowNoMem r q i e h1 h2 h3 h4 h5 =>
    refine ginv_put_same g h1 (by exact ⟨rfl, rfl⟩) ?_ (fun _ => .inl (inMutex_of h2 rfl)) (fun _ => g.bug)
    intro h
    simp only [RInv, h2] at h
    refine ⟨fun j => by rw [h.2.1 j]; split <;> omega, fun j hj => ?_, ?_, h.2.2.2, h5, lt_of_some h3⟩
    · rw [h.2.1 j, if_neg]
      rintro ⟨a1, a2⟩
      rcases hj with hj | hj
      · omega
      · exact absurd (show need q j = false from hj) (by simp [a2])
    · have := h.2.2.1
      have := lt_of_some h3
      simp only; omega
  | enqGot r q i e h1 h2 h3 h4 h5 =>
    obtain ⟨p1, p2, p3, _⟩ := lockSection_true h5
    refine ginv_put_grant g h1 h3 (ci_lockSection g.ci _) p1 p2 p3 (by exact ⟨rfl, rfl⟩) ?_
      (fun _ => inMutex_of h2 rfl)
    intro h hN
    simp only [RInv, h2] at h
    exact ⟨lt_of_some h3, fill_add (need_some h3) h.2.1 hN, h.2.2.1, h.2.2.2.1⟩
  | enqWait r q i e h1 h2 h3 h4 h5 =>
    have he := lockSection_false h5
    have hc := ci_lockSection g.ci (q.tok r e i)
    simp only [State.put]
    rw [he] at hc ⊢
    refine ginv_put_enq g h1 h3 hc (by exact ⟨rfl, rfl⟩) ?_ (fun _ => inMutex_of h2 rfl)
    intro h hN
    simp only [RInv, h2] at h
    refine ⟨lt_of_some h3, fill_add (need_some h3) h.2.1 hN, ?_, h.2.2.2.1⟩
    have := h.2.2.1
    simp only; omega
  | slowGot r q i h1 h2 =>
    refine ginv_put_same g h1 (by exact ⟨rfl, rfl⟩) ?_ (fun _ => .inl (inMutex_of h2 rfl)) ?_
    · intro h
      simp only [RInv, h2] at h
      refine ⟨h.1, h.2.1, ?_, h.2.2.2⟩
      have := h.2.2.1
      simp only; omega
    · intro h
      simp only [RInv, h2] at h
      have := h.2.2.1
      have : q.remaining - 1 ≠ 0 := by omega
      simp [g.bug, this]
  | slowEnd r q h1 h2 =>
    refine ginv_put_same g h1 (by exact ⟨rfl, rfl⟩) ?_ (fun _ => .inl (inMutex_of h2 rfl)) (fun _ => g.bug)
    intro h
    simp only [RInv, h2] at h
    refine ⟨fill_full h.2.1, ?_, h.2.2.2⟩
    have := h.2.2.1
    simp only; omega
  | finalOwned r q h1 h2 h3 =>
    refine ginv_put_same g h1 (by exact ⟨rfl, rfl⟩) ?_ (by simp [PC.inMutex]) (fun _ => g.bug)
    intro h
    simp only [RInv, h2] at h
    refine ⟨h.1, ?_, h3, by simp [h.2.2]⟩
    have := h.2.1
    omega
  | finalWait r q h1 h2 h3 =>
    refine ginv_put_same g h1 (by exact ⟨rfl, rfl⟩) ?_ (by simp [PC.inMutex]) (fun _ => g.bug)
    intro h
    simp only [RInv, h2] at h
    have := h.2.1
    refine ⟨h.1, ?_, ?_, h.2.2⟩
    · simp only; omega
    · omega
  | errSkip r q k h1 h2 h3 =>
    refine ginv_put_same g h1 (by exact ⟨rfl, rfl⟩) ?_ (fun _ => .inl (inMutex_of h2 rfl)) (fun _ => g.bug)
    intro h
    simp only [RInv, h2] at h
    refine ⟨h.1, fun j hj => ?_, h.2.2.1, h.2.2.2.1, h.2.2.2.2.1, Nat.le_of_succ_le h.2.2.2.2.2⟩
    by_cases hjk : j = k
    · subst hjk; exact h.2.1 j (.inr (need_none h3))
    · exact h.2.1 j (hj.imp (fun hj => by omega) id)
  | errUnlock r q k e h1 h2 h3 h4 h5 =>
    refine ginv_put_unlock g h1 h4 (by exact ⟨rfl, rfl⟩) ?_ (fun _ => inMutex_of h2 rfl)
    intro h hN
    simp only [RInv, h2] at h
    refine ⟨fun j => ?_, fun j hj => ?_, h.2.2.1, h.2.2.2.1, h.2.2.2.2.1, Nat.le_of_succ_le h.2.2.2.2.2⟩
    · have := h.1 j; rw [hN j] at this; omega
    · by_cases hjk : k = j
      · subst hjk; have := h.1 k; rw [hN k] at this; simp at this; omega
      · have := h.2.1 j (hj.imp (fun hj => by omega) id)
        rw [hN j] at this; omega
  | errRemove r q k e h1 h2 h3 h4 h5 =>
    have h := g.req r q h1
    simp only [RInv, h2] at h
    by_cases hf : ∃ w ∈ s.core.wl, (B w.entry == B e && w.req == r) = true
    · obtain ⟨w, hw, hp⟩ := hf
      obtain ⟨a, l1, l2, hl1, ha, hwl, her⟩ := List.exists_of_eraseP
        (p := fun w => B w.entry == B e && w.req == r) hw hp
      simp only [Bool.and_eq_true, beq_iff_eq] at ha
      have hmem : a ∈ s.core.wl := by rw [hwl]; simp
      have hmt : a ∈ toks s.core := by
        simp only [toks, List.mem_append]; exact .inl (.inl hmem)
      obtain ⟨q0, b1, b2, b3⟩ := g.tok a hmt
      rw [ha.2, h1] at b1
      cases b1
      have hidx : a.idx = k := h.2.2.2.2.1 _ _ _ _ b2 h3 ha.1
      have hp1 : (wlp s.core).Perm (a :: wlp (removeWaiter B s.core (B e) r)) := by
        simp only [wlp, removeWaiter]
        rw [her, hwl]
        simp only [List.append_assoc, List.cons_append]
        exact List.perm_middle
      have hp2 : (toks s.core).Perm (a :: toks (removeWaiter B s.core (B e) r)) :=
        hp1.append_right _
      refine ginv_put g h1 (ci_removeWaiter g.ci B _ r) ?_ (.inl (by exact ⟨rfl, rfl⟩)) ?_ ?_ ?_
        (fun _ => .inl (inMutex_of h2 rfl)) (fun _ => g.bug)
      · intro t ht
        exact .inl (hp2.mem_iff.2 (List.mem_cons_of_mem _ ht))
      · intro r0 h0 j
        rw [N_cons hp2]; simp [ha.2, Ne.symm h0]
      · intro r0 h0
        rw [W_cons hp1]; simp [ha.2, Ne.symm h0]
      · intro _
        have hN := N_cons hp2 r
        have hW := W_cons hp1 r
        simp only [ha.2, true_and, if_true, hidx] at hN hW
        refine ⟨fun j => ?_, fun j hj => ?_, ?_, h.2.2.2.1, h.2.2.2.2.1, Nat.le_of_succ_le h.2.2.2.2.2⟩
        · have := h.1 j; rw [hN j] at this; omega
        · by_cases hjk : k = j
          · subst hjk; have := h.1 k; rw [hN k] at this; simp at this; omega
          · have := h.2.1 j (hj.imp (fun hj => by omega) id)
            rw [hN j] at this; omega
        · have := h.2.2.1
          simp only; omega
    · have hno : (removeWaiter B s.core (B e) r) = s.core := by
        unfold removeWaiter
        rw [List.eraseP_of_forall_not (fun w hw hh => hf ⟨w, hw, hh⟩)]
      simp only [State.put, hno]
      refine ginv_put_same g h1 (by exact ⟨rfl, rfl⟩) ?_ (fun _ => .inl (inMutex_of h2 rfl))
        (fun _ => g.bug)
      intro _
      refine ⟨h.1, fun j hj => ?_, h.2.2.1, h.2.2.2.1, h.2.2.2.2.1, Nat.le_of_succ_le h.2.2.2.2.2⟩
      by_cases hjk : j = k
      · subst hjk
        rcases Nat.eq_zero_or_pos (N s.core r j) with h6 | h6
        · exact h6
        · obtain ⟨t, ht, c1, c2⟩ := N_pos_iff.1 h6
          have ht' := tok_eq g h1 h3 ht c1 c2
          subst ht'
          rcases List.mem_append.1 ht with h7 | h7
          · rcases List.mem_append.1 h7 with h8 | h8
            · exact absurd ⟨_, h8, by simp [Req.tok]⟩ hf
            · exact absurd rfl (h5 _ h8)
          · exact absurd h7 h4
      · exact h.2.1 j (hj.imp (fun hj => by omega) id)
  | errDone r q h1 h2 =>
    refine ginv_put_same g h1 (by exact ⟨rfl, rfl⟩) ?_ (by simp [PC.inMutex]) (fun _ => g.bug)
    intro h
    simp only [RInv, h2] at h
    have hz : ∀ j, N s.core r j = 0 := fun j => h.2.1 j (.inl (Nat.zero_le _))
    exact ⟨hz, W_zero hz, rfl⟩
  | notify t q h1 h2 =>
    obtain ⟨p1, p2⟩ := notify_eff h1
    have hN : ∀ r0 j, N (notifyCore s.core t) r0 j
        = N s.core r0 j := fun r0 j => N_same p1 r0 j
    have hW := W_cons p2
    refine ginv_put (c := notifyCore s.core t) g h2 hci ?_ ?_ (fun r0 _ j => hN r0 j) ?_ ?_ ?_ ?_
    · intro t' ht'
      exact .inl (p1.mem_iff.1 ht')
    · left; unfold notifyReq; split <;> exact ⟨rfl, rfl⟩
    · intro r0 h0
      rw [hW r0, if_neg (Ne.symm h0)]; rfl
    · intro h
      rw [show N (notifyCore s.core t) t.req
        = N s.core t.req from funext (hN t.req)]
      have hWt := hW t.req
      rw [if_pos rfl] at hWt
      rw [hWt] at h
      generalize W (notifyCore s.core t) t.req
        = w at h
      cases hpc : q.pc <;> simp only [RInv, hpc] at h
      case idle => omega
      case fast i => omega
      case roll i => omega
      case mutexWait => omega
      case owned => omega
      case unlock i => omega
      case slow i =>
        have h3 := h.2.2.1
        have : q.remaining - 1 ≠ 0 := by omega
        simp only [notifyReq, if_neg this, RInv, hpc]
        exact ⟨h.1, h.2.1, by omega, h.2.2.2⟩
      case enq i =>
        have h3 := h.2.2.1
        have : q.remaining - 1 ≠ 0 := by omega
        simp only [notifyReq, if_neg this, RInv, hpc]
        exact ⟨h.1, h.2.1, by omega, h.2.2.2⟩
      case got i =>
        have h3 := h.2.2.1
        have : q.remaining - 1 ≠ 0 := by omega
        simp only [notifyReq, if_neg this, RInv, hpc]
        exact ⟨h.1, h.2.1, by omega, h.2.2.2⟩
      case err k =>
        have h3 := h.2.2.1
        have : q.remaining - 1 ≠ 0 := by omega
        simp only [notifyReq, if_neg this, RInv, hpc]
        exact ⟨h.1, h.2.1, by omega, h.2.2.2⟩
      case final =>
        have h3 := h.2.1
        have : q.remaining - 1 ≠ 0 := by omega
        simp only [notifyReq, if_neg this, RInv, hpc]
        exact ⟨h.1, by omega, h.2.2⟩
      case waiting =>
        have h3 := h.2.1
        by_cases h0 : q.remaining - 1 = 0
        · simp only [notifyReq, if_pos h0, RInv]
          exact ⟨h.1, by omega, h0, by omega⟩
        · simp only [notifyReq, if_neg h0, RInv, hpc]
          exact ⟨h.1, by omega, by omega, h.2.2.2⟩
    · intro h
      unfold notifyReq at h
      split at h
      · exact absurd h (by simp [PC.inMutex])
      · exact .inl h
    · intro h
      have hWt := hW t.req
      rw [if_pos rfl] at hWt
      rw [hWt] at h
      generalize W _ t.req = w at h
      simp only [g.bug, Bool.false_or]
      unfold notifyReq
      split
      · rename_i h0
        cases hpc : q.pc <;> simp only [RInv, hpc] at h
        case waiting => rfl
        all_goals (exfalso; omega)
      · rfl
  | unlockStart r q h1 h2 =>
    refine ginv_put_same g h1 (by exact ⟨rfl, rfl⟩) ?_ (by simp [PC.inMutex]) (fun _ => g.bug)
    intro h
    simp only [RInv, h2] at h
    refine ⟨Nat.zero_le _, fun j => ?_, h.2⟩
    rw [h.1 j]
    show _ = if 0 ≤ j ∧ need q j = true then 1 else 0
    simp
  | unlockSkip r q k h1 h2 h3 h4 =>
    refine ginv_put_same g h1 (by exact ⟨rfl, rfl⟩) ?_ (by simp [PC.inMutex]) (fun _ => g.bug)
    intro h
    simp only [RInv, h2] at h
    refine ⟨h3, fun j => ?_, h.2.2⟩
    rw [h.2.1 j]
    show _ = if k + 1 ≤ j ∧ need q j = true then 1 else 0
    by_cases hjk : k = j
    · subst hjk
      cases hn : need q k
      · simp
      · exfalso
        obtain ⟨e, he⟩ := need_true hn
        refine h4 e he (held_of_N g h1 he ?_ h.2.2.1)
        rw [h.2.1 k]; simp [hn]
    · have : k ≤ j ↔ k + 1 ≤ j := by omega
      simp only [this]
  | unlockDo r q k e h1 h2 h3 h4 h5 =>
    refine ginv_put_unlock g h1 h4 (by exact ⟨rfl, rfl⟩) ?_ (by simp [PC.inMutex])
    intro h hN
    simp only [RInv, h2] at h
    refine ⟨lt_of_some h3, fun j => ?_, h.2.2⟩
    have hj := h.2.1 j
    rw [hN j] at hj
    show _ = if k + 1 ≤ j ∧ need q j = true then 1 else 0
    by_cases hjk : k = j
    · subst hjk
      simp [need_some h3] at hj
      rw [hj, if_neg (by omega)]
    · have : k ≤ j ↔ k + 1 ≤ j := by omega
      simp only [hjk, and_false, if_false, Nat.add_zero, this] at hj
      exact hj
  | unlockDone r q h1 h2 =>
    refine ginv_put_same g h1 (by exact ⟨rfl, rfl⟩) ?_ (by simp [PC.inMutex]) (fun _ => g.bug)
    intro h
    simp only [RInv, h2] at h
    refine ⟨fun j => ?_, h.2.2.1, h.2.2.2.1⟩
    rw [h.2.1 j, if_neg]
    rintro ⟨a, b⟩
    rw [need_len a] at b
    exact absurd b (by simp)

end Verif.Alock
