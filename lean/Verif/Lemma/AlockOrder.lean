import Verif.Lemma.AlockReq

/-! Order of waiting: a request only waits for requests that passed the mutex before it. -/

namespace Verif.Alock

/-- Program points of a request that passed the mutex and has not got everything yet. -/
def PC.slowish (p : PC) : Bool := p.inMutex || p == .waiting

/-- Ticket of a request. -/
def tick (reqs : List Req) (r : Nat) : Nat := ((reqs[r]?).map Req.ticket).getD 0

/-- The request passed the mutex and has not got everything yet. -/
def sl (reqs : List Req) (r : Nat) : Prop := ∃ q, reqs[r]? = some q ∧ q.pc.slowish = true

/-- Order of the wait list. -/
def R (reqs : List Req) (a b : Tok) : Prop :=
  tick reqs a.req ≤ tick reqs b.req ∧ (a.entry = b.entry → tick reqs a.req < tick reqs b.req)

/-- Ticket invariant. -/
structure KInv (s : State) : Prop where
  k1 : ∀ r, sl s.reqs r → tick s.reqs r < s.clock
  k2 : ∀ (r r' : Nat) (q : Req), s.reqs[r]? = some q → q.pc.inMutex = true → sl s.reqs r' →
    r' ≠ r → tick s.reqs r' < tick s.reqs r
  k3 : s.core.wl.Pairwise (R s.reqs)
  k4 : ∀ w ∈ s.core.wl, ∀ h, h ∈ s.core.pend ∨ h ∈ s.core.held → h.entry = w.entry →
    sl s.reqs h.req → tick s.reqs h.req < tick s.reqs w.req
  k5 : ∀ r r', sl s.reqs r → sl s.reqs r' → r ≠ r' → tick s.reqs r ≠ tick s.reqs r'

theorem tick_some {reqs : List Req} {r : Nat} {q : Req} (h : reqs[r]? = some q) :
    tick reqs r = q.ticket := by simp [tick, h]

theorem get_set {reqs : List Req} {r r0 : Nat} {q q' q0 : Req} (hq : reqs[r]? = some q)
    (h0 : (reqs.set r q')[r0]? = some q0) :
    (r0 = r ∧ q0 = q') ∨ (r0 ≠ r ∧ reqs[r0]? = some q0) := by
  have hlt : r < reqs.length := (List.getElem?_eq_some_iff.1 hq).1
  by_cases h1 : r0 = r
  · subst h1
    rw [List.getElem?_set_self hlt] at h0
    exact .inl ⟨rfl, by simpa using h0.symm⟩
  · rw [List.getElem?_set_ne (Ne.symm h1)] at h0
    exact .inr ⟨h1, h0⟩

theorem tick_ne {reqs : List Req} {r r0 : Nat} {q' : Req} (h : r0 ≠ r) :
    tick (reqs.set r q') r0 = tick reqs r0 := by
  simp [tick, List.getElem?_set_ne (Ne.symm h)]

theorem tick_set {reqs : List Req} {r : Nat} {q q' : Req} (hq : reqs[r]? = some q)
    (ht : q'.ticket = q.ticket) (r0 : Nat) : tick (reqs.set r q') r0 = tick reqs r0 := by
  by_cases h1 : r0 = r
  · subst h1
    have hlt : r0 < reqs.length := (List.getElem?_eq_some_iff.1 hq).1
    simp only [tick, List.getElem?_set_self hlt, hq, Option.map_some, Option.getD_some, ht]
  · exact tick_ne h1

theorem R_congr {reqs reqs' : List Req} {a b : Tok} (ha : tick reqs' a.req = tick reqs a.req)
    (hb : tick reqs' b.req = tick reqs b.req) (h : R reqs a b) : R reqs' a b := by
  unfold R at *; rw [ha, hb]; exact h

theorem kinv_put {s : State} (k : KInv s) {r : Nat} {q q' : Req} {c : Core}
    (hq : s.reqs[r]? = some q) (ht : q'.ticket = q.ticket)
    (hs : q'.pc.slowish = true → q.pc.slowish = true)
    (hm : q'.pc.inMutex = true → q.pc.inMutex = true)
    (h3 : c.wl.Pairwise (R s.reqs))
    (h4 : ∀ w ∈ c.wl, ∀ h, h ∈ c.pend ∨ h ∈ c.held → h.entry = w.entry →
      sl s.reqs h.req → tick s.reqs h.req < tick s.reqs w.req) {b : Bool} :
    KInv ⟨c, s.reqs.set r q', s.clock, b⟩ := by
  have hsl : ∀ r0, sl (s.reqs.set r q') r0 → sl s.reqs r0 := by
    rintro r0 ⟨q0, h1, h2⟩
    rcases get_set hq h1 with ⟨e1, e2⟩ | ⟨e1, e2⟩
    · subst e1; subst e2; exact ⟨q, hq, hs h2⟩
    · exact ⟨q0, e2, h2⟩
  have htk := tick_set hq ht
  refine ⟨?_, ?_, ?_, ?_, ?_⟩
  · intro r0 h0; simp only [htk]; exact k.k1 r0 (hsl r0 h0)
  · intro r1 r2 q1 h1 h2 h5 h6
    simp only [htk]
    rcases get_set hq h1 with ⟨e1, e2⟩ | ⟨e1, e2⟩
    · subst e1; subst e2
      exact k.k2 _ r2 q hq (hm h2) (hsl r2 h5) h6
    · exact k.k2 r1 r2 q1 e2 h2 (hsl r2 h5) h6
  · exact h3.imp (fun h => R_congr (htk _) (htk _) h)
  · intro w hw h hh he hl
    simp only [htk]
    exact h4 w hw h hh he (hsl _ hl)
  · intro r1 r2 h1 h2 h5
    simp only [htk]
    exact k.k5 r1 r2 (hsl r1 h1) (hsl r2 h2) h5

theorem kinv_same {s : State} (k : KInv s) {r : Nat} {q q' : Req}
    (hq : s.reqs[r]? = some q) (ht : q'.ticket = q.ticket)
    (hs : q'.pc.slowish = true → q.pc.slowish = true)
    (hm : q'.pc.inMutex = true → q.pc.inMutex = true) {b : Bool} :
    KInv ⟨s.core, s.reqs.set r q', s.clock, b⟩ :=
  kinv_put k hq ht hs hm k.k3 k.k4

theorem kinv_grant {s : State} (k : KInv s) {r : Nat} {q q' : Req} {c : Core} {t : Tok}
    (hq : s.reqs[r]? = some q) (ht : q'.ticket = q.ticket)
    (hs : q'.pc.slowish = true → q.pc.slowish = true)
    (hm : q'.pc.inMutex = true → q.pc.inMutex = true)
    (h1 : c.wl = s.core.wl) (h2 : c.pend = s.core.pend) (h3 : c.held = s.core.held ++ [t])
    (h4 : of t.entry s.core.wl = []) {b : Bool} :
    KInv ⟨c, s.reqs.set r q', s.clock, b⟩ := by
  refine kinv_put k hq ht hs hm (by rw [h1]; exact k.k3) ?_
  intro w hw h hh he hl
  rw [h1] at hw
  rw [h2, h3] at hh
  rcases hh with hh | hh
  · exact k.k4 w hw h (.inl hh) he hl
  · rcases List.mem_append.1 hh with hh | hh
    · exact k.k4 w hw h (.inr hh) he hl
    · simp only [List.mem_singleton] at hh
      subst hh
      have : w ∈ of h.entry s.core.wl := mem_of.2 ⟨hw, he.symm⟩
      rw [h4] at this
      exact absurd this (by simp)

theorem kinv_unlock {B : Nat → Nat} {s : State} (g : GInv B s) (k : KInv s) {r : Nat}
    {q q' : Req} {t : Tok}
    (hq : s.reqs[r]? = some q) (ht : q'.ticket = q.ticket)
    (hs : q'.pc.slowish = true → q.pc.slowish = true)
    (hm : q'.pc.inMutex = true → q.pc.inMutex = true) (hh : t ∈ s.core.held) {b : Bool} :
    KInv ⟨unlockSection s.core t, s.reqs.set r q', s.clock, b⟩ := by
  have hw := unlock_wake g.ci hh
  have h3 : (unlockSection s.core t).wl.Sublist s.core.wl := hw.sub
  refine kinv_put k hq ht hs hm (k.k3.sublist h3) ?_
  intro w hwm h hhm he hl
  have hws : w ∈ s.core.wl := h3.subset hwm
  rcases hhm with hhm | hhm
  · simp only [unlockSection] at hhm
    rcases List.mem_append.1 hhm with h5 | h5
    · exact k.k4 w hws h (.inl h5) he hl
    · have hent := hw.went h h5
      have hp : (of t.entry s.core.wl).Pairwise (R s.reqs) := k.k3.sublist List.filter_sublist
      rw [hw.split, List.pairwise_append] at hp
      exact (hp.2.2 h h5 w (mem_of.2 ⟨hwm, by rw [← he, hent]⟩)).2 he
  · exact k.k4 w hws h (.inr (List.mem_of_mem_erase hhm)) he hl

theorem slowish_of {q : Req} {p : PC} (h : q.pc = p) (hp : p.slowish = true) :
    q.pc.slowish = true := by rw [h]; exact hp

/-- A request with something left to notify has passed the mutex. -/
theorem sl_of_W {B : Nat → Nat} {s : State} (g : GInv B s) {t : Tok} (ht : t ∈ wlp s.core) :
    sl s.reqs t.req := by
  obtain ⟨q, h1, _⟩ := g.tok t (wlp_sub ht)
  have hr := g.req _ q h1
  have hw := W_pos ht
  refine ⟨q, h1, ?_⟩
  cases hpc : q.pc <;> simp only [RInv, hpc] at hr <;> first | rfl | (exfalso; omega)

theorem kinv_init (n : Nat) : KInv (State.init n) := by
  have hn : ∀ r, ¬ sl (State.init n).reqs r := by
    rintro r ⟨q, h1, h2⟩
    have := List.eq_of_mem_replicate (List.mem_of_getElem? h1)
    rw [this] at h2
    exact absurd h2 (by decide)
  refine ⟨fun r h => absurd h (hn r), fun _ r' _ _ _ h => absurd h (hn r'), List.Pairwise.nil,
    fun w hw => absurd hw (by simp [State.init]), fun r _ h => absurd h (hn r)⟩

theorem kinv_step {B : Nat → Nat} {s s' : State} (g : GInv B s) (k : KInv s)
    (st : Calm B s s') : KInv s' := by
  cases st with
  | start r q w to es h1 h2 h3 =>
    exact kinv_same k h1 (by rfl) (by simp [PC.slowish, PC.inMutex])
      (by simp [PC.inMutex])
  | fastSkip r q i h1 h2 h3 =>
    exact kinv_same k h1 (by rfl) (by simp [PC.slowish, PC.inMutex])
      (by simp [PC.inMutex])
  | fastOk r q i e c h1 h2 h3 h4 =>
    obtain ⟨_, p2, p3, p4, p5⟩ := tryIdle_eff h4
    exact kinv_grant k h1 (by rfl) (by simp [PC.slowish, PC.inMutex])
      (by simp [PC.inMutex]) p2 p3 p4
      (g.ci.idle _ p5)
  | fastFail r q i e h1 h2 h3 h4 =>
    exact kinv_same k h1 (by rfl) (by simp [PC.slowish, PC.inMutex])
      (by simp [PC.inMutex])
  | fastDone r q h1 h2 =>
    exact kinv_same k h1 (by rfl) (by simp [PC.slowish, PC.inMutex])
      (by simp [PC.inMutex])
  | rollSkip r q k' h1 h2 h3 =>
    exact kinv_same k h1 (by rfl) (by simp [PC.slowish, PC.inMutex])
      (by simp [PC.inMutex])
  | rollUnlock r q k' e h1 h2 h3 h4 h5 =>
    exact kinv_unlock g k h1 (by rfl) (by simp [PC.slowish, PC.inMutex])
      (by simp [PC.inMutex]) h4
  | rollDone r q h1 h2 =>
    refine kinv_same k h1 (by rfl) ?_ ?_
    · cases q.tryOnly <;> simp [PC.slowish, PC.inMutex]
    · cases q.tryOnly <;> simp [PC.inMutex]
  | mutex r q h1 h2 h3 =>
    have hz := g.req r q h1
    simp only [RInv, h2] at hz
    have hne : ∀ t ∈ toks s.core, t.req ≠ r := by
      intro t ht hr
      have := N_pos ht
      rw [hr, hz.1] at this
      omega
    have hlt : r < s.reqs.length := (List.getElem?_eq_some_iff.1 h1).1
    have hnew : ∀ q' : Req, tick (s.reqs.set r q') r = q'.ticket :=
      fun q' => tick_some (List.getElem?_set_self hlt)
    have hsl : ∀ (r0 : Nat) (q' : Req), r0 ≠ r → sl (s.reqs.set r q') r0 → sl s.reqs r0 := by
      rintro r0 q' h0 ⟨q0, e1, e2⟩
      rcases get_set h1 e1 with ⟨f1, _⟩ | ⟨_, f2⟩
      · exact absurd f1 h0
      · exact ⟨q0, f2, e2⟩
    have hwl : ∀ t ∈ s.core.wl, t ∈ toks s.core := fun t ht => by simp [toks, ht]
    refine ⟨?_, ?_, ?_, ?_, ?_⟩
    · intro r0 h0
      by_cases hr0 : r0 = r
      · subst hr0; simp only [State.put, hnew]; omega
      · have := k.k1 r0 (hsl r0 _ hr0 h0)
        simp only [State.put, tick_ne hr0]; omega
    · intro r1 r2 q1 e1 e2 e3 e4
      rcases get_set h1 e1 with ⟨f1, f2⟩ | ⟨f1, f2⟩
      · subst f1
        simp only [State.put, tick_ne e4, hnew]
        exact k.k1 r2 (hsl r2 _ e4 e3)
      · rw [h3 q1 (List.mem_of_getElem? f2)] at e2
        exact absurd e2 (by simp)
    · exact k.k3.imp_of_mem (fun ha hb h => R_congr (tick_ne (hne _ (hwl _ ha)))
        (tick_ne (hne _ (hwl _ hb))) h)
    · intro w hw h hh he hl
      have hhm : h ∈ toks s.core := by
        simp only [toks, List.mem_append]
        exact hh.elim (fun h => .inl (.inr h)) .inr
      have h5 := hne h hhm
      have h6 := hne w (hwl w hw)
      simp only [State.put, tick_ne h5, tick_ne h6]
      exact k.k4 w hw h hh he (hsl _ _ h5 hl)
    · intro r1 r2 e1 e2 e3
      by_cases f1 : r1 = r <;> by_cases f2 : r2 = r
      · exact absurd (f1.trans f2.symm) e3
      · subst f1
        have := k.k1 r2 (hsl r2 _ f2 e2)
        simp only [State.put, tick_ne f2, hnew]; omega
      · subst f2
        have := k.k1 r1 (hsl r1 _ f1 e1)
        simp only [State.put, tick_ne f1, hnew]; omega
      · simp only [State.put, tick_ne f1, tick_ne f2]
        exact k.k5 r1 r2 (hsl r1 _ f1 e1) (hsl r2 _ f2 e2) e3
  | slowSkip r q i h1 h2 h3 =>
    exact kinv_same k h1 (by rfl) (fun _ => slowish_of h2 rfl) (fun _ => inMutex_of h2 rfl)
  | slowTry r q i e c h1 h2 h3 h4 =>
    obtain ⟨_, p2, p3, p4, p5⟩ := tryIdle_eff h4
    exact kinv_grant k h1 (by rfl) (fun _ => slowish_of h2 rfl) (fun _ => inMutex_of h2 rfl) p2 p3 p4
      (g.ci.idle _ p5)
  | slowAlloc r q i e h1 h2 h3 h4 =>
    exact kinv_same k h1 (by rfl) (fun _ => slowish_of h2 rfl) (fun _ => inMutex_of h2 rfl)
  | slowNoMem r q i e h1 h2 h3 h4 h5 =>
    exact kinv_same k h1 (by rfl) (fun _ => slowish_of h2 rfl) (fun _ => inMutex_of h2 rfl)
  | enqGot r q i e h1 h2 h3 h4 h5 =>
    obtain ⟨_, p2, p3, p4, p5⟩ := lockSection_true h5
    exact kinv_grant k h1 (by rfl) (fun _ => slowish_of h2 rfl) (fun _ => inMutex_of h2 rfl) p2 p3 p4
      (p5.elim (g.ci.idle _) id)
  | enqWait r q i e h1 h2 h3 h4 h5 =>
    have he := lockSection_false h5
    simp only [State.put]
    rw [he]
    have hr := g.req r q h1
    simp only [RInv, h2] at hr
    have hni : N s.core r i = 0 := by rw [hr.2.1 i]; simp
    have hnr : ∀ h ∈ toks s.core, h.entry = e → h.req ≠ r := by
      intro h hh hhe hreq
      obtain ⟨q0, a1, a2, _⟩ := g.tok h hh
      rw [hreq, h1] at a1
      cases a1
      rw [hhe] at a2
      have := g.dist r q h1 _ _ _ a2 h3
      have h6 := N_pos hh
      rw [hreq, this, hni] at h6
      omega
    have hlt : ∀ r', sl s.reqs r' → r' ≠ r → tick s.reqs r' < tick s.reqs r :=
      fun r' h6 h7 => k.k2 r r' q h1 (inMutex_of h2 rfl) h6 h7
    refine kinv_put k h1 (by rfl) (fun _ => slowish_of h2 rfl) (fun _ => inMutex_of h2 rfl) ?_ ?_
    · simp only [enqueue, List.pairwise_append]
      refine ⟨k.k3, by simp, ?_⟩
      intro a ha b hb
      simp only [List.mem_singleton] at hb
      subst hb
      have hat : a ∈ toks s.core := by simp [toks, ha]
      have has : sl s.reqs a.req := sl_of_W g (by simp [wlp, ha])
      refine ⟨?_, fun hee => ?_⟩
      · by_cases h6 : a.req = r
        · rw [h6]; exact Nat.le_refl _
        · exact Nat.le_of_lt (hlt _ has h6)
      · exact hlt _ has (hnr a hat hee)
    · intro w hw h hh hee hl
      simp only [enqueue] at hw hh
      rcases List.mem_append.1 hw with h6 | h6
      · exact k.k4 w h6 h hh hee hl
      · simp only [List.mem_singleton] at h6
        subst h6
        have hht : h ∈ toks s.core := by
          simp only [toks, List.mem_append]
          exact hh.elim (fun h => .inl (.inr h)) .inr
        exact hlt _ hl (hnr h hht hee)
  | slowGot r q i h1 h2 =>
    exact kinv_same k h1 (by rfl) (fun _ => slowish_of h2 rfl) (fun _ => inMutex_of h2 rfl)
  | slowEnd r q h1 h2 =>
    exact kinv_same k h1 (by rfl) (fun _ => slowish_of h2 rfl) (fun _ => inMutex_of h2 rfl)
  | finalOwned r q h1 h2 h3 =>
    exact kinv_same k h1 (by rfl) (fun _ => slowish_of h2 rfl) (fun _ => inMutex_of h2 rfl)
  | finalWait r q h1 h2 h3 =>
    exact kinv_same k h1 (by rfl) (fun _ => slowish_of h2 rfl) (fun _ => inMutex_of h2 rfl)
  | errSkip r q k' h1 h2 h3 =>
    exact kinv_same k h1 (by rfl) (fun _ => slowish_of h2 rfl) (fun _ => inMutex_of h2 rfl)
  | errUnlock r q k' e h1 h2 h3 h4 h5 =>
    exact kinv_unlock g k h1 (by rfl) (fun _ => slowish_of h2 rfl) (fun _ => inMutex_of h2 rfl) h4
  | errRemove r q k' e h1 h2 h3 h4 h5 =>
    have hs : (removeWaiter B s.core (B e) r).wl.Sublist s.core.wl := List.eraseP_sublist
    exact kinv_put k h1 (by rfl) (fun _ => slowish_of h2 rfl) (fun _ => inMutex_of h2 rfl)
      (k.k3.sublist hs) (fun w hw => k.k4 w (hs.subset hw))
  | errDone r q h1 h2 =>
    exact kinv_same k h1 (by rfl) (fun _ => slowish_of h2 rfl) (fun _ => inMutex_of h2 rfl)
  | notify t q h1 h2 =>
    refine kinv_put (c := notifyCore s.core t) k h2 ?_ ?_ ?_ k.k3 ?_
    · unfold notifyReq; split <;> rfl
    · unfold notifyReq; split
      · simp [PC.slowish, PC.inMutex]
      · exact id
    · unfold notifyReq; split
      · simp [PC.inMutex]
      · exact id
    · intro w hw h hh
      simp only [notifyCore] at hw hh
      refine k.k4 w hw h ?_
      rcases hh with hh | hh
      · exact .inl (List.mem_of_mem_erase hh)
      · rcases List.mem_append.1 hh with hh | hh
        · exact .inr hh
        · simp only [List.mem_singleton] at hh
          rw [hh]; exact .inl h1
  | unlockStart r q h1 h2 =>
    exact kinv_same k h1 (by rfl) (by simp [PC.slowish, PC.inMutex])
      (by simp [PC.inMutex])
  | unlockSkip r q k' h1 h2 h3 h4 =>
    exact kinv_same k h1 (by rfl) (by simp [PC.slowish, PC.inMutex])
      (by simp [PC.inMutex])
  | unlockDo r q k' e h1 h2 h3 h4 h5 =>
    exact kinv_unlock g k h1 (by rfl) (by simp [PC.slowish, PC.inMutex])
      (by simp [PC.inMutex]) h4
  | unlockDone r q h1 h2 =>
    exact kinv_same k h1 (by rfl) (by simp [PC.slowish, PC.inMutex])
      (by simp [PC.inMutex])

/-- Among finitely many requests that wait, one has the least ticket. -/
theorem least_waiting {s : State} (h : ∃ r, sl s.reqs r) :
    ∃ r, sl s.reqs r ∧ ∀ r', sl s.reqs r' → tick s.reqs r ≤ tick s.reqs r' := by
  obtain ⟨r, hr⟩ := h
  generalize hm : tick s.reqs r = m
  induction m using Nat.strongRecOn generalizing r with
  | ind m ih =>
    by_cases hx : ∃ r', sl s.reqs r' ∧ tick s.reqs r' < m
    · obtain ⟨r', h1, h2⟩ := hx
      exact ih _ h2 r' h1 rfl
    · refine ⟨r, hr, fun r' h' => ?_⟩
      rw [hm]
      exact Nat.le_of_not_lt (fun hlt => hx ⟨r', h', hlt⟩)

end Verif.Alock
