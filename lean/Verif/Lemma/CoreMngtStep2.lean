import Verif.Lemma.CoreMngtStep

/-!
Every step of `Verif.CoreMngt` keeps the invariant, continued.
-/

namespace Verif.CoreMngt

theorem nInact_pos {l : List Slot} {k : Nat} {x : Slot} (h : l[k]? = some x) (ha : x.added = true)
    (ho : x.opened = false) : 1 ≤ nInact l := by
  have := Verif.countP_pos_of_get (fun sl : Slot => sl.added && !sl.opened) l k x h (by simp [ha, ho])
  unfold nInact
  omega

theorem nAdded_pos {l : List Slot} {k : Nat} {x : Slot} (h : l[k]? = some x) (ha : x.added = true) :
    1 ≤ nAdded l := by
  have := Verif.countP_pos_of_get (fun sl : Slot => sl.added) l k x h ha
  unfold nAdded
  omega

theorem G.less {s : St} (g : G s) (h : 1 ≤ nInact s.slots) :
    (if s.inactive - 1 = 0 then false else s.incomplete) = decide (s.inactive - 1 ≠ 0) := by
  have h1 := g.inact
  by_cases e : s.inactive - 1 = 0
  · rw [if_pos e]; simp [e]
  · rw [if_neg e, g.inc]
    have : s.inactive ≠ 0 := by omega
    simp [e, this]

/-- A crash. -/
def Dead (s : St) : Prop := s.pend = .dead ∧ s.fe = true ∧ s.crash = true

theorem G.tryAt {s : St} {i : TryIn} {k : Nat} {sl : Slot} (g : G s) (hid : s.pend = .idle)
    (hg : s.slots[k]? = some sl) (ha : sl.added = true) (ho : sl.opened = false) :
    G (tryAt s i k sl) := by
  have hx := g.slots k sl hg
  rw [hid] at hx
  have hty := (hx.volA (Or.inl ha)).2.1
  have hvp := (hx.volA (Or.inl ha)).2.2
  have hhv := (hx.volA (Or.inl ha)).1
  unfold CoreMngt.tryAt
  rw [if_neg (by rw [hty]; simp)]
  by_cases e1 : (sl.vol.opened || !i.volOpen) = true
  · rw [if_pos e1]; exact g.tell _ _ _
  rw [if_neg e1]
  by_cases e2 : (!i.lenOk) = true
  · rw [if_pos e2]; exact g.tell _ _ _
  rw [if_neg e2]
  simp only
  apply G.tell
  have hle := g.less (nInact_pos hg ha ho)
  have hval := hx.val ha
  refine g.upd hg rfl ?_ rfl rfl (fun _ _ => rfl) ?_ id id ?_ ?_ hle ?_ ?_ ?_ ?_ g.uaf ?_ ?_ ?_
  · show SOk s.attached (s.fe || !(frontInit sl.front i.frontInit i.frontOpen).1) s.li s.busy (stopping s.pend)
      (phase s.pend k) _
    rw [hid]
    refine ⟨hx.bit, hx.val, hx.adv, hx.cnt, hx.cut, fun _ => Or.inl ha, ?_, ?_, ?_, ?_,
      fun _ => ⟨hhv, hty, hvp⟩, rfl, ?_, ?_, ?_, ?_, ?_, hx.cln, hx.clS, ?_, hx.dat2⟩
    · intro h; cases h
    · intro h; cases h
    · intro h; cases h
    · intro h; cases h
    · intro h; rw [ha] at h; cases h
    · intro _ h
      apply frontInit_ok
      cases e : (frontInit sl.front i.frontInit i.frontOpen).1
      · rw [e] at h; simp at h
      · rfl
    · intro h; cases h
    · intro hl hn
      have h1 := hx.ioF hl hn
      rw [(hx.frN ho hl).2] at h1; cases h1
    · intro h; rcases h with h | h <;> cases h
    · intro _ h
      rcases h with h | h
      · have h' : sl.valid = false := h
        rw [hval] at h'; cases h'
      · cases h
  · intro h; simp [lessInactive, h]
  · show s.count = s.count + b2i sl.valid - b2i sl.valid
    omega
  · show s.inactive - 1 = _
    simp [ha, ho, b2i]
  · exact g.keepName hg (fun _ => ha) rfl
  · exact g.keepUuid hg (fun h => h) rfl
  · intro h
    have := g.crash h
    simp [lessInactive, this]
  · intro h
    have h' : s.leaked + sl.front.lost i.frontInit ≠ 0 := h
    cases hl : s.li
    · rw [lost_zero (hx.frN ho hl).1] at h'
      have := g.leaked (by omega)
      rw [hl] at this; cases this
    · simp [lessInactive]
  · intro h1 h2 h3
    have := g.sb h1 h2 h3
    show s.sb = image (s.slots.set k _)
    exact this.trans (image_set _ _ _ _ hg (by rfl)).symm
  · show StopOk (s.slots.set k _) s.pend
    rw [hid]; trivial
  · show s.pend ≠ .failed
    rw [hid]; intro h; cases h

theorem findIdx_get {l : List Slot} {p : Slot → Bool} {k : Nat} {x : Slot} (h : l.findIdx? p = some k)
    (hg : l[k]? = some x) : p x = true := by
  rw [List.findIdx?_eq_some_iff_getElem] at h
  obtain ⟨hj, hp, _⟩ := h
  rw [List.getElem?_eq_getElem hj] at hg
  cases hg
  exact hp

theorem G.tryAdd {s : St} {i : TryIn} (g : G s) (hid : s.pend = .idle) : G (tryAdd s i) := by
  unfold CoreMngt.tryAdd
  cases hf : s.slots.findIdx? (fun sl => sl.added && sl.name == i.name) with
  | none => exact g.tell _ _ _
  | some k =>
    simp only
    cases hg : s.slots[k]? with
    | none => exact g.tell _ _ _
    | some sl =>
      simp only
      have := findIdx_get hf hg
      simp only [Bool.and_eq_true] at this
      by_cases e1 : sl.opened = true
      · rw [if_pos e1]; exact g.tell _ _ _
      rw [if_neg e1]
      by_cases e2 : (!i.typeOk) = true
      · rw [if_pos e2]; exact g.tell _ _ _
      rw [if_neg e2]
      by_cases e3 : sl.uuid ≠ i.uuid
      · rw [if_pos e3]; exact g.tell _ _ _
      rw [if_neg e3]
      exact g.tryAt hid hg this.1 (by simpa using e1)

/-- The operation under way changes and nothing else of note. -/
theorem G.pend {s s' : St} (g : G s) (hs : s'.slots = s.slots) (ha : s'.attached = s.attached)
    (h1 : s'.fe = s.fe) (h2 : s'.li = s.li) (h3 : s.busy = true → s'.busy = true)
    (hc : s'.count = s.count)
    (hi : s'.inactive = s.inactive) (hinc : s'.incomplete = s.incomplete) (hcr : s'.crash = s.crash)
    (hl : s'.leaked = s.leaked) (huf : s'.uaf = s.uaf)
    (hst : stopping s'.pend = stopping s.pend)
    (hph : ∀ (j : Nat) (x : Slot), s.slots[j]? = some x →
      SOk s.attached s.fe s.li s'.busy (stopping s.pend) (phase s.pend j) x →
      SOk s.attached s.fe s.li s'.busy (stopping s.pend) (phase s'.pend j) x)
    (hsb : s'.attached = true → s'.stale = false → lag s'.pend = false → s'.sb = image s.slots)
    (hstop : StopOk s.slots s'.pend) (hnf : s'.pend ≠ .failed) : G s' := by
  refine ⟨?_, ?_, ?_, ?_, ?_, ?_, ?_, ?_, ?_, ?_, ?_, hnf⟩
  · intro j x hx
    rw [hs] at hx
    rw [ha, h1, h2, hst]
    exact hph j x hx ((g.slots j x hx).mono id id h3)
  · rw [hc, hs]; exact g.count
  · rw [hi, hs]; exact g.inact
  · rw [hinc, hi]; exact g.inc
  · rw [hs]; exact g.names
  · rw [hs]; exact g.uuids
  · rw [hcr, h1]; exact g.crash
  · rw [hl, h2]; exact g.leaked
  · rw [huf, h2]
    intro h
    rcases g.uaf h with h | h
    · exact Or.inl (h3 h)
    · exact Or.inr h
  · rw [hs]; exact hsb
  · rw [hs]; exact hstop

/-- Only what is asked of a place by a phase changes. -/
theorem SOk.phase {att fe li busy stp : Bool} {p q : Ph} {x : Slot} (h : SOk att fe li busy stp p x)
    (h1 : p ≠ .closing) (hc : q ≠ .closing)
    (hb : q = .body → x.added = true ∧ stp = false ∧ (x.io ≠ 0 → busy = true) ∧
      (x.data = true → busy = true ∨ li = true))
    (hd : q = .dt → x.added = true ∧ x.opened = true ∧ x.front.typ = true)
    (hg : q = .gone → x.added = false ∧ x.valid = false ∧ x.opened = false) :
    SOk att fe li busy stp q x := by
  refine ⟨h.bit, h.val, h.adv, h.cnt, h.cut, ?_, fun e => absurd e hc, fun e => ⟨(hb e).1, (hb e).2.1⟩,
    hd, hg, h.volA, h.volO, h.volN, h.frA, h.frN, h.ioF, ?_, h.cln, h.clS, ?_, h.dat2⟩
  · intro e
    rcases h.opn e with c | c
    · exact Or.inl c
    · exact absurd c h1
  · intro e
    rcases e with e | e
    · exact absurd e hc
    · exact (hb e).2.2.1
  · intro e f
    rcases f with f | f
    · exact h.dat e (Or.inl f)
    · exact (hb f).2.2.2 e

theorem G.rmStart {s : St} {k : Nat} {sl : Slot} {e : Bool} (g : G s) (hid : s.pend = .idle)
    (hg : s.slots[k]? = some sl) (ha : sl.added = true) : G (rmStart s k sl e) := by
  have hx := g.slots k sl hg
  rw [hid] at hx
  have hval := hx.val ha
  -- the data of the core is dropped
  have g1 : G (if s.attached then { s with slots := s.slots.set k { sl with data := false } } else s) := by
    by_cases h : s.attached = true
    · rw [if_pos h]
      refine g.upd hg rfl ?_ rfl rfl (fun _ _ => rfl) id id id ?_ ?_ g.inc ?_ ?_ g.crash g.leaked g.uaf ?_ ?_
        g.nfail
      · show SOk s.attached s.fe s.li s.busy (stopping s.pend) (CoreMngt.phase s.pend k) _
        rw [hid]
        exact ⟨hx.bit, hx.val, hx.adv, hx.cnt, hx.cut, hx.opn, hx.cls, hx.bod, hx.dtp, hx.gon, hx.volA, hx.volO,
          hx.volN, hx.frA, hx.frN, hx.ioF, hx.iob, hx.cln, hx.clS, fun h => (by cases h), fun h => (by cases h)⟩
      · show s.count = s.count + b2i sl.valid - b2i sl.valid
        omega
      · show s.inactive = s.inactive + b2i (sl.added && !sl.opened) - b2i (sl.added && !sl.opened)
        omega
      · exact g.keepName hg (fun h => h) rfl
      · exact g.keepUuid hg (fun h => h) rfl
      · intro h1 h2 h3
        show s.sb = image (s.slots.set k _)
        exact (g.sb h1 h2 h3).trans (image_set _ _ _ _ hg (by rfl)).symm
      · exact g.stop.set hg rfl
    · rw [if_neg h]; exact g
  have hp1 : (if s.attached then { s with slots := s.slots.set k { sl with data := false } } else s).pend = .idle := by
    by_cases h : s.attached = true
    · rw [if_pos h]; exact hid
    · rw [if_neg h]; exact hid
  have hb1 : (if s.attached then { s with slots := s.slots.set k { sl with data := false } } else s).busy = s.busy := by
    by_cases h : s.attached = true
    · rw [if_pos h]
    · rw [if_neg h]
  have hk1 : ∀ x, (if s.attached then { s with slots := s.slots.set k { sl with data := false } } else s).slots[k]? =
      some x → x = { sl with data := false } := by
    intro x h1
    by_cases h : s.attached = true
    · rw [if_pos h] at h1
      rcases get_set hg h1 with ⟨_, h2⟩ | ⟨h2, _⟩
      · exact h2
      · exact absurd rfl h2
    · rw [if_neg h, hg] at h1
      cases h1
      have hd : sl.data = false := by
        cases h2 : sl.data
        · rfl
        · exact absurd (hx.dat2 h2) h
      obtain ⟨⟩ := sl
      simp only at hd
      subst hd
      rfl
  unfold CoreMngt.rmStart
  simp only
  generalize hs1 : (if s.attached then { s with slots := s.slots.set k { sl with data := false } } else s) = s1
    at g1 hp1 hb1 hk1
  by_cases h : (s.attached && e) = true
  · rw [if_pos h]; exact g1.tell _ _ _
  · rw [if_neg h]
    refine g1.pend rfl rfl rfl rfl ?_ rfl rfl rfl rfl rfl rfl (by rw [hp1]; rfl) ?_ ?_ trivial
      (by intro h; cases h)
    · intro hb; rw [hb1] at hb; simp [hb]
    · intro j x hj hx1
      rw [hp1] at hx1 ⊢
      by_cases hjk : k = j
      · subst hjk
        have hxe := hk1 x hj
        simp only [CoreMngt.phase, if_true]
        refine hx1.phase (by simp [CoreMngt.phase]) (by simp) ?_ (by simp) (by simp)
        intro _
        rw [hxe]
        refine ⟨ha, rfl, ?_, ?_⟩
        · intro h; simp at h; simp [h]
        · intro h; cases h
      · simp only [CoreMngt.phase, if_neg hjk]
        exact hx1
    · intro h1 h2 h3
      exact g1.sb h1 h2 (by rw [hp1]; rfl)

theorem closing_valid {att fe li busy : Bool} {x : Slot} (h : SOk att fe li busy false .closing x) :
    x.valid = false := by
  cases e : x.valid
  · rfl
  · have := h.adv e rfl
    rw [(h.cls rfl).1] at this; cases this

/-- Telling the end of a removal or waiting for the superblock. -/
theorem G.rmEnd {s s' : St} {k : Nat} {x y : Slot} (g : G s) (hg : s.slots[k]? = some x)
    (hp : s.pend = .rmClose k ∨ s.pend = .rmBody k)
    (hs : s'.slots = s.slots.set k y) (hd : s'.attached = s.attached)
    (h1 : s'.fe = s.fe) (h2 : s'.li = s.li) (h3 : s'.busy = s.busy)
    (hc : s'.count = s.count + b2i y.valid - b2i x.valid)
    (hi : s'.inactive = s.inactive + b2i (y.added && !y.opened) - b2i (x.added && !x.opened))
    (hinc : s'.incomplete = decide (s'.inactive ≠ 0)) (hcr : s'.crash = s.crash)
    (hl : s'.leaked = s.leaked) (huf : s'.uaf = s.uaf)
    (hy : ∀ q, q ≠ Ph.closing → q ≠ Ph.body → q ≠ Ph.dt → SOk s.attached s.fe s.li s.busy false q y)
    (ya : y.added = false) (yv : y.valid = false) : G (rmEnd s' k) := by
  have hst : stopping s.pend = false := by rcases hp with h | h <;> rw [h] <;> rfl
  have hph : ∀ j, j ≠ k → CoreMngt.phase s.pend j = .norm := by
    intro j hj
    rcases hp with h | h <;> rw [h] <;> simp [CoreMngt.phase, Ne.symm hj]
  unfold CoreMngt.rmEnd
  by_cases e : s'.attached = true
  · rw [if_pos e]
    refine g.upd hg hs ?_ hd (by rw [hst]; rfl) ?_ (by rw [h1]; exact id) (by rw [h2]; exact id)
      (by rw [h3]; exact id) hc hi hinc (by rw [ya]; intro h; cases h) (by rw [yv]; intro h; cases h)
      (by rw [hcr, h1]; exact g.crash) (by rw [hl, h2]; exact g.leaked) (by rw [huf, h2, h3]; exact g.uaf) ?_
      trivial (by intro h; cases h)
    · show SOk s'.attached s'.fe s'.li s'.busy false (CoreMngt.phase (.rmFlush k) k) y
      rw [hd, h1, h2, h3]
      exact hy _ (by simp [CoreMngt.phase]) (by simp [CoreMngt.phase]) (by simp [CoreMngt.phase])
    · intro j hj
      rw [hph j hj]; simp [CoreMngt.phase, Ne.symm hj]
    · intro _ _ h; cases h
  · rw [if_neg e]
    apply G.tell
    refine g.upd hg hs ?_ hd (by rw [hst]; rfl) ?_ (by rw [h1]; exact id) (by rw [h2]; exact id)
      (by rw [h3]; exact id) hc hi hinc (by rw [ya]; intro h; cases h) (by rw [yv]; intro h; cases h)
      (by rw [hcr, h1]; exact g.crash) (by rw [hl, h2]; exact g.leaked) (by rw [huf, h2, h3]; exact g.uaf) ?_
      trivial (by intro h; cases h)
    · show SOk s'.attached s'.fe s'.li s'.busy false .norm y
      rw [hd, h1, h2, h3]
      exact hy _ (by simp) (by simp) (by simp)
    · intro j hj
      rw [hph j hj]; rfl
    · intro h; exact absurd h e

theorem deinit_closed {x : Slot} (ho : x.opened = true) (hv : x.hasVol = true) :
    x.deinit = { x with front := x.front.close.deinit, vol := x.vol.close.deinit, opened := false } := by
  obtain ⟨⟩ := x
  simp only at ho hv
  subst ho hv
  rfl

theorem deinit_inactive {x : Slot} (ho : x.opened = false) (hv : x.hasVol = true) :
    x.deinit = { x with vol := x.vol.deinit } := by
  obtain ⟨⟩ := x
  simp only at ho hv
  subst ho hv
  rfl

theorem G.rmClose {s : St} {k : Nat} {sl : Slot} (g : G s) (hp : s.pend = .rmClose k)
    (hg : s.slots[k]? = some sl) (hio : sl.io = 0) : G (rmClose s k sl) := by
  have hx := g.slots k sl hg
  rw [hp] at hx
  simp only [CoreMngt.phase, stopping, if_true] at hx
  have hc := hx.cls rfl
  have hv := closing_valid hx
  have hvol := hx.volA (Or.inr hc.2)
  unfold CoreMngt.rmClose
  rw [deinit_closed hc.2 hvol.1]
  refine g.rmEnd (k := k) (x := sl) hg (Or.inl hp) rfl rfl rfl rfl rfl ?_ ?_ g.inc rfl rfl rfl ?_ hc.1 hv
  · show s.count = s.count + b2i sl.valid - b2i sl.valid
    omega
  · show s.inactive = _
    simp [hc.1]
  · intro q q1 q2 q3
    refine ⟨hx.bit, hx.val, hx.adv, hx.cnt, hx.cut, fun h => (by cases h), fun h => absurd h q1,
      fun h => absurd h q2, fun h => absurd h q3, fun _ => ⟨hc.1, hv, rfl⟩, ?_, rfl, fun _ _ => rfl,
      fun h => (by cases h), fun _ _ => ⟨rfl, rfl⟩, fun _ h => absurd hio h, fun _ h => absurd hio h,
      hx.cln, hx.clS, fun h _ => hx.dat h (Or.inl hv), hx.dat2⟩
    intro h
    rcases h with h | h
    · have h' : sl.added = true := h
      rw [hc.1] at h'; cases h'
    · cases h

theorem G.rmBody {s : St} {k : Nat} {sl : Slot} (g : G s) (hp : s.pend = .rmBody k)
    (hg : s.slots[k]? = some sl) : G (rmBody s k sl) ∨ Dead (rmBody s k sl) := by
  have hx := g.slots k sl hg
  rw [hp] at hx
  simp only [CoreMngt.phase, stopping, if_true] at hx
  have ha := (hx.bod rfl).1
  have hval := hx.val ha
  have hvol := hx.volA (Or.inl ha)
  have hcnt : sl.counters = true := by rw [hx.cnt]; exact ha
  have hcut : sl.cutoff = true := by rw [hx.cut]; exact ha
  unfold CoreMngt.rmBody
  by_cases e : sl.opened = true ∧ sl.front.typ = false
  · rw [if_pos e]
    refine Or.inr ⟨rfl, ?_, rfl⟩
    show s.fe = true
    cases h : s.fe
    · have := hx.frA e.1 h
      rw [this] at e
      cases e.2
    · rfl
  · rw [if_neg e]
    refine Or.inl ?_
    by_cases ho : sl.opened = true
    · rw [if_pos ho]
      have e1 : (sl.fromMeta s.attached).opened = true := ho
      refine g.upd (x := sl) (y := (sl.fromMeta s.attached).fromCache) hg ?_ ?_ ?_ ?_ ?_ ?_ ?_ ?_ ?_ ?_ ?_ ?_ ?_ ?_
        ?_ ?_ ?_ ?_ ?_
      · simp only [fromCache, e1, if_true]
      · simp only [fromCache, e1, if_true, CoreMngt.phase, stopping]
        refine ⟨rfl, fun h => (by cases h), fun h => (by cases h), rfl, rfl, fun _ => Or.inr rfl,
          fun _ => ⟨rfl, ho⟩, fun h => (by cases h), fun h => (by cases h), fun h => (by cases h),
          fun _ => hvol, hx.volO, ?_, hx.frA, hx.frN, hx.ioF, ?_, ?_, fun h => (by cases h), ?_, hx.dat2⟩
        · intro _ h
          have h' : sl.opened = false := h
          rw [ho] at h'; cases h'
        · intro _ h; exact hx.iob (Or.inr rfl) h
        · intro _
          have := hx.cln rfl
          by_cases h : s.attached = true
          · simp [Slot.fromMeta, Slot.fromCache, h]
          · have h' : s.attached = false := by cases hh : s.attached <;> simp_all
            simp [Slot.fromMeta, Slot.fromCache, h', this]
        · intro h _; exact hx.dat h (Or.inr rfl)
      · simp only [fromCache, e1, if_true]
      · simp only [fromCache, e1, if_true, hp]; rfl
      · intro j hj
        simp only [fromCache, e1, if_true, hp, CoreMngt.phase, if_neg (Ne.symm hj)]
      · simp only [fromCache, e1, if_true]; exact id
      · simp only [fromCache, e1, if_true]; exact id
      · simp only [fromCache, e1, if_true]; exact id
      · simp only [fromCache, e1, if_true]
        show s.count - 1 = s.count + b2i false - b2i sl.valid
        rw [hval]; simp [b2i]
      · simp only [fromCache, e1, if_true]
        show s.inactive = s.inactive + b2i (false && !sl.opened) - b2i (sl.added && !sl.opened)
        rw [ho]; simp
      · simp only [fromCache, e1, if_true]; exact g.inc
      · intro h; cases h
      · intro h; cases h
      · simp only [fromCache, e1, if_true]; exact g.crash
      · simp only [fromCache, e1, if_true]; exact g.leaked
      · simp only [fromCache, e1, if_true]
        intro h
        apply g.uaf
        simpa [Slot.fromMeta, hcnt, hcut] using h
      · intro _ _ h; cases h
      · trivial
      · intro h; cases h
    · rw [if_neg ho]
      have ho' : sl.opened = false := by simpa using ho
      have e1 : (sl.fromMeta s.attached).opened = false := ho'
      have hv1 : (sl.fromMeta s.attached).fromCache.hasVol = true := hvol.1
      have hle := g.less (nInact_pos hg ha ho')
      rw [deinit_inactive (x := (sl.fromMeta s.attached).fromCache) ho' hv1]
      refine g.rmEnd (k := k) (x := sl)
        (y := { (sl.fromMeta s.attached).fromCache with vol := sl.vol.deinit }) hg (Or.inr hp)
        ?_ ?_ ?_ ?_ ?_ ?_ ?_ ?_ ?_ ?_ ?_ ?_ rfl rfl
      · simp only [fromCache, e1, lessInactive]
        exact List.set_set ..
      · simp [fromCache, e1, lessInactive]
      · simp [fromCache, e1, lessInactive]
      · simp [fromCache, e1, lessInactive]
      · simp [fromCache, e1, lessInactive]
      · simp only [fromCache, e1, lessInactive]
        show s.count - 1 = s.count + b2i false - b2i sl.valid
        rw [hval]; simp [b2i]
      · simp only [fromCache, e1, lessInactive]
        show s.inactive - 1 = s.inactive + b2i (false && !sl.opened) - b2i (sl.added && !sl.opened)
        rw [ho', ha]; simp [b2i]
      · simp only [fromCache, e1, lessInactive]; exact hle
      · simp [fromCache, e1, lessInactive]
      · simp [fromCache, e1, lessInactive]
      · simp only [fromCache, e1, lessInactive]
        simp [Slot.fromMeta, hcnt, hcut]
      · intro q q1 q2 q3
        refine ⟨rfl, fun h => (by cases h), fun h => (by cases h), rfl, rfl, ?_, fun h => absurd h q1,
          fun h => absurd h q2, fun h => absurd h q3, fun _ => ⟨rfl, rfl, ho'⟩, ?_, ?_, fun _ _ => rfl, hx.frA,
          hx.frN, hx.ioF, ?_, ?_, fun h => (by cases h), ?_, hx.dat2⟩
        · intro h
          have h' : sl.opened = true := h
          exact absurd h' ho
        · intro h
          rcases h with h | h
          · cases h
          · have h' : sl.opened = true := h
            exact absurd h' ho
        · exact hx.volO
        · intro h
          rcases h with h | h
          · exact absurd h q1
          · exact absurd h q2
        · intro _
          have := hx.cln rfl
          by_cases h : s.attached = true
          · simp [Slot.fromMeta, Slot.fromCache, h]
          · have h' : s.attached = false := by cases hh : s.attached <;> simp_all
            simp [Slot.fromMeta, Slot.fromCache, h', this]
        · intro h _; exact hx.dat h (Or.inr rfl)

theorem G.rmFlush {s : St} {k : Nat} {r : FlushR} (g : G s) (hp : s.pend = .rmFlush k) :
    G (rmFlush s k r) := by
  unfold CoreMngt.rmFlush
  apply G.tell
  refine g.pend rfl rfl rfl rfl id rfl rfl rfl rfl rfl rfl (by rw [hp]; rfl) ?_ ?_ trivial
    (by intro h; cases h)
  · intro j x _ hx
    refine hx.phase ?_ (by simp [CoreMngt.phase]) (by simp [CoreMngt.phase]) (by simp [CoreMngt.phase])
      (by simp [CoreMngt.phase])
    rw [hp]
    by_cases e : k = j <;> simp [CoreMngt.phase, e]
  · intro _ h _
    simp only [decide_eq_false_iff_not, Decidable.not_not] at h
    show r.dev s.sb (image s.slots) = _
    rw [h]; rfl

theorem G.dtStart {s : St} {k : Nat} {sl : Slot} (g : G s) (hid : s.pend = .idle)
    (hg : s.slots[k]? = some sl) (ha : sl.added = true) : G (dtStart s k sl) ∨ Dead (dtStart s k sl) := by
  have hx := g.slots k sl hg
  unfold CoreMngt.dtStart
  by_cases e : sl.opened = false
  · rw [if_pos e]; exact Or.inl (g.tell _ _ _)
  rw [if_neg e]
  have ho : sl.opened = true := by simpa using e
  by_cases e2 : sl.front.typ = false
  · rw [if_pos e2]
    refine Or.inr ⟨rfl, ?_, rfl⟩
    show s.fe = true
    cases h : s.fe
    · have := hx.frA ho h
      rw [this] at e2
      cases e2
    · rfl
  · rw [if_neg e2]
    refine Or.inl ?_
    refine g.pend rfl rfl rfl rfl id rfl rfl rfl rfl rfl rfl (by rw [hid]; rfl) ?_ ?_ trivial
      (by intro h; cases h)
    · intro j x hj hx1
      rw [hid] at hx1 ⊢
      by_cases hjk : k = j
      · subst hjk
        rw [hg] at hj
        cases hj
        simp only [CoreMngt.phase, if_true]
        exact hx1.phase (by simp [CoreMngt.phase]) (by simp) (by simp)
          (fun _ => ⟨ha, ho, by simpa using e2⟩) (by simp)
      · simp only [CoreMngt.phase, if_neg hjk]
        exact hx1
    · intro h1 h2 _
      exact g.sb h1 h2 (by rw [hid]; rfl)

theorem G.dtClose {s : St} {k : Nat} {sl : Slot} (g : G s) (hp : s.pend = .dtClose k)
    (hg : s.slots[k]? = some sl) (hio : sl.io = 0) : G (dtClose s k sl) := by
  have hx := g.slots k sl hg
  rw [hp] at hx
  simp only [CoreMngt.phase, stopping, if_true] at hx
  obtain ⟨ha, ho, ht⟩ := hx.dtp rfl
  have hval := hx.val ha
  unfold CoreMngt.dtClose
  apply G.tell
  refine g.upd hg rfl ?_ rfl (by rw [hp]; rfl) ?_ id id id ?_ ?_ ?_ ?_ ?_ g.crash g.leaked g.uaf ?_ trivial
    (by intro h; cases h)
  · show SOk s.attached s.fe s.li s.busy false .norm _
    refine ⟨hx.bit, hx.val, hx.adv, hx.cnt, hx.cut, fun h => (by cases h), fun h => (by cases h),
      fun h => (by cases h), fun h => (by cases h), fun h => (by cases h), fun _ => hx.volA (Or.inl ha), rfl, ?_,
      fun h => (by cases h), fun _ _ => ⟨rfl, rfl⟩, fun _ h => absurd hio h, fun _ h => absurd hio h,
      hx.cln, hx.clS, ?_, hx.dat2⟩
    · intro h
      have h' : sl.added = false := h
      rw [ha] at h'; cases h'
    · intro _ h
      rcases h with h | h
      · have h' : sl.valid = false := h
        rw [hval] at h'; cases h'
      · cases h
  · intro j hj
    rw [hp]; simp [CoreMngt.phase, Ne.symm hj]
  · show s.count = s.count + b2i sl.valid - b2i sl.valid
    omega
  · show s.inactive + 1 = s.inactive + b2i (sl.added && !false) - b2i (sl.added && !sl.opened)
    rw [ha, ho]; simp [b2i]
  · show true = decide (s.inactive + 1 ≠ 0)
    have h1 := g.inact
    have h2 : 0 ≤ nInact s.slots := by unfold nInact; omega
    have h3 : s.inactive + 1 ≠ 0 := by omega
    simp [h3]
  · exact g.keepName hg (fun h => h) rfl
  · exact g.keepUuid hg (fun h => h) rfl
  · intro h1 h2 _
    show s.sb = image (s.slots.set k _)
    exact (g.sb h1 h2 (by rw [hp]; rfl)).trans (image_set _ _ _ _ hg (by rfl)).symm

end Verif.CoreMngt
