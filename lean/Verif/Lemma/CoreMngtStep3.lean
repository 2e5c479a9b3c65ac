import Verif.Lemma.CoreMngtStep2

/-!
Every step of `Verif.CoreMngt` keeps the invariant: stop, attach and detach of the cache, load, requests.
-/

namespace Verif.CoreMngt

/-- A change of all places that keeps what is counted and named. -/
structure Keeps (f : Slot → Slot) : Prop where
  valid : ∀ x, (f x).valid = x.valid
  added : ∀ x, (f x).added = x.added
  opened : ∀ x, (f x).opened = x.opened
  name : ∀ x, (f x).name = x.name
  uuid : ∀ x, (f x).uuid = x.uuid

theorem nValid_map (l : List Slot) {f : Slot → Slot} (h : Keeps f) : nValid (l.map f) = nValid l := by
  unfold nValid
  rw [List.countP_map]
  congr 2
  funext x
  exact h.valid x

theorem nInact_map (l : List Slot) {f : Slot → Slot} (h : Keeps f) : nInact (l.map f) = nInact l := by
  unfold nInact
  rw [List.countP_map]
  congr 2
  funext x
  show ((f x).added && !(f x).opened) = _
  rw [h.added, h.opened]

theorem nAdded_map (l : List Slot) {f : Slot → Slot} (h : Keeps f) : nAdded (l.map f) = nAdded l := by
  unfold nAdded
  rw [List.countP_map]
  congr 2
  funext x
  exact h.added x

theorem image_map (l : List Slot) {f : Slot → Slot} (h : Keeps f) : image (l.map f) = image l := by
  unfold image
  rw [List.map_map]
  congr 1
  funext x
  show (f x).meta = _
  unfold Slot.meta
  rw [h.valid, h.name, h.uuid]

/-- All places change. -/
theorem G.map {s s' : St} {f : Slot → Slot} (g : G s) (hk : Keeps f) (hs : s'.slots = s.slots.map f)
    (hc : s'.count = s.count) (hi : s'.inactive = s.inactive) (hinc : s'.incomplete = s.incomplete)
    (hcr : s'.crash = s.crash) (h1 : s'.fe = s.fe) (h2 : s'.li = s.li) (h3 : s'.busy = s.busy)
    (hl : s'.leaked = s.leaked) (huf : s'.uaf = s.uaf)
    (hy : ∀ (j : Nat) (x : Slot), s.slots[j]? = some x →
      SOk s.attached s.fe s.li s.busy (stopping s.pend) (phase s.pend j) x →
      SOk s'.attached s'.fe s'.li s'.busy (stopping s'.pend) (phase s'.pend j) (f x))
    (hsb : s'.attached = true → s'.stale = false → lag s'.pend = false → s'.sb = image s.slots)
    (hstop : StopOk s'.slots s'.pend) (hnf : s'.pend ≠ .failed) : G s' := by
  have hget : ∀ (j : Nat) (y : Slot), s'.slots[j]? = some y → ∃ x, s.slots[j]? = some x ∧ y = f x := by
    intro j y h
    rw [hs, List.getElem?_map] at h
    cases e : s.slots[j]? with
    | none => rw [e] at h; cases h
    | some x => rw [e] at h; cases h; exact ⟨x, rfl, rfl⟩
  refine ⟨?_, ?_, ?_, ?_, ?_, ?_, ?_, ?_, ?_, ?_, hstop, hnf⟩
  · intro j y h
    obtain ⟨x, hx, e⟩ := hget j y h
    rw [e]
    exact hy j x hx (g.slots j x hx)
  · rw [hc, hs, nValid_map _ hk]; exact g.count
  · rw [hi, hs, nInact_map _ hk]; exact g.inact
  · rw [hinc, hi]; exact g.inc
  · intro a b x y ha hb xa ya e
    obtain ⟨p, hp, e1⟩ := hget a x ha
    obtain ⟨q, hq, e2⟩ := hget b y hb
    subst e1 e2
    rw [hk.added] at xa ya
    rw [hk.name, hk.name] at e
    exact g.names a b p q hp hq xa ya e
  · intro a b x y ha hb xa ya e
    obtain ⟨p, hp, e1⟩ := hget a x ha
    obtain ⟨q, hq, e2⟩ := hget b y hb
    subst e1 e2
    rw [hk.valid] at xa ya
    rw [hk.uuid, hk.uuid] at e
    exact g.uuids a b p q hp hq xa ya e
  · rw [hcr, h1]; exact g.crash
  · rw [hl, h2]; exact g.leaked
  · rw [huf, h2, h3]; exact g.uaf
  · rw [hs, image_map _ hk]; exact hsb

theorem keeps_clean (g : Slot → Bool) : Keeps (fun sl => { sl with cleaning := g sl }) :=
  ⟨fun _ => rfl, fun _ => rfl, fun _ => rfl, fun _ => rfl, fun _ => rfl⟩

theorem nValid_added {s : St} (g : G s) (h : stopping s.pend = false) : nValid s.slots = nAdded s.slots := by
  unfold nValid nAdded
  congr 1
  apply List.countP_congr
  intro x hx
  obtain ⟨j, hj⟩ := List.getElem?_of_mem hx
  have hs := g.slots j x hj
  rw [h] at hs
  exact ⟨fun e => hs.adv e rfl, fun e => hs.val e⟩

theorem G.stopStart {s : St} (g : G s) (hid : s.pend = .idle) : G (stopStart s) := by
  have hk := keeps_clean (fun _ => false)
  unfold CoreMngt.stopStart
  refine g.map hk rfl rfl rfl rfl rfl rfl rfl rfl rfl rfl ?_ ?_ ?_ (by intro h; cases h)
  · intro j x _ hx
    rw [hid] at hx
    exact ⟨hx.bit, hx.val, fun _ h => (by cases h), hx.cnt, hx.cut, hx.opn, fun h => (by cases h),
      fun h => (by cases h), fun h => (by cases h), fun h => (by cases h), hx.volA, hx.volO, hx.volN, hx.frA, hx.frN,
      hx.ioF, hx.iob, fun h => (by cases h), fun _ => rfl, hx.dat, hx.dat2⟩
  · intro _ _ h; cases h
  · refine ⟨fun _ _ _ h => absurd h (Nat.not_lt_zero _), ?_⟩
    show nAdded (s.slots.map _) = (s.count.toNat : Int)
    have h2 := nValid_added g (by rw [hid]; rfl)
    have h1 := g.count
    have h3 : 0 ≤ nAdded s.slots := by unfold nAdded; omega
    have h4 : (s.count.toNat : Int) = nAdded s.slots := by omega
    rw [h4]
    exact nAdded_map _ hk

theorem G.attachCache {s : St} (g : G s) (hid : s.pend = .idle) (ha : s.attached = false) :
    G (attachCache s) := by
  unfold CoreMngt.attachCache
  refine g.map (keeps_clean (fun sl => sl.added)) rfl rfl rfl rfl rfl rfl rfl rfl rfl rfl ?_ (fun _ _ _ => rfl) ?_
    g.nfail
  · intro j x _ hx
    rw [hid, ha] at hx
    show SOk true s.fe s.li s.busy (stopping s.pend) (CoreMngt.phase s.pend j) _
    rw [hid]
    refine ⟨hx.bit, hx.val, hx.adv, hx.cnt, hx.cut, hx.opn, fun h => (by cases h),
      fun h => (by cases h), fun h => (by cases h), fun h => (by cases h), hx.volA, hx.volO, hx.volN, hx.frA, hx.frN,
      hx.ioF, hx.iob, fun _ => rfl, fun h => (by cases h), hx.dat, fun _ => rfl⟩
  · show StopOk _ s.pend
    rw [hid]; trivial

theorem G.detachCache {s : St} (g : G s) (hid : s.pend = .idle) : G (detachCache s) := by
  unfold CoreMngt.detachCache
  refine g.map (f := fun sl => { sl with cleaning := false, data := false })
    ⟨fun _ => rfl, fun _ => rfl, fun _ => rfl, fun _ => rfl, fun _ => rfl⟩
    rfl rfl rfl rfl rfl rfl rfl rfl rfl rfl ?_ (fun h => (by cases h)) ?_ g.nfail
  · intro j x _ hx
    rw [hid] at hx
    show SOk false s.fe s.li s.busy (stopping s.pend) (CoreMngt.phase s.pend j) _
    rw [hid]
    refine ⟨hx.bit, hx.val, hx.adv, hx.cnt, hx.cut, hx.opn, fun h => (by cases h),
      fun h => (by cases h), fun h => (by cases h), fun h => (by cases h), hx.volA, hx.volO, hx.volN, hx.frA, hx.frN,
      hx.ioF, hx.iob, fun _ => rfl, fun h => (by cases h), fun h => (by cases h), fun h => (by cases h)⟩
  · show StopOk _ s.pend
    rw [hid]; trivial

theorem nAdded_zero {l : List Slot} (h : ∀ (k : Nat) (x : Slot), l[k]? = some x → x.added = false) :
    nAdded l = 0 := by
  unfold nAdded
  have : l.countP (fun sl => sl.added) = 0 := by
    rw [List.countP_eq_zero]
    intro x hx
    obtain ⟨j, hj⟩ := List.getElem?_of_mem hx
    rw [h j x hj]; simp
  rw [this]; rfl

theorem added_zero {l : List Slot} (h : nAdded l = 0) (k : Nat) (x : Slot) (hx : l[k]? = some x) :
    x.added = false := by
  cases e : x.added
  · rfl
  · have := nAdded_pos hx e; omega

/-- After one core of the stop. -/
theorem stopAfter_ok {l : List Slot} {j no : Nat}
    (h1 : ∀ (k : Nat) (sl : Slot), l[k]? = some sl → k ≤ j → sl.added = false) (h2 : nAdded l + 1 = (no : Int)) :
    StopOk l (if no = 1 then .stopped else .stop (j + 1) (no - 1)) := by
  by_cases e : no = 1
  · rw [if_pos e]
    show nAdded l = 0
    omega
  · rw [if_neg e]
    refine ⟨fun k sl hk hj => h1 k sl hk (by omega), ?_⟩
    have h3 : 0 ≤ nAdded l := by unfold nAdded; omega
    omega

theorem after_stop (j no : Nat) : stopping (if no = 1 then Pend.stopped else .stop (j + 1) (no - 1)) = true := by
  by_cases e : no = 1
  · rw [if_pos e]; rfl
  · rw [if_neg e]; rfl

theorem after_phase (j no i : Nat) :
    phase (if no = 1 then Pend.stopped else .stop (j + 1) (no - 1)) i = .norm := by
  by_cases e : no = 1
  · rw [if_pos e]; rfl
  · rw [if_neg e]; rfl

theorem after_lag (j no : Nat) : lag (if no = 1 then Pend.stopped else .stop (j + 1) (no - 1)) = true := by
  by_cases e : no = 1
  · rw [if_pos e]; rfl
  · rw [if_neg e]; rfl

theorem G.stopNext {s : St} {j no : Nat} (g : G s) (hp : s.pend = .stop j no) :
    G (stopNext s j no) ∨ Dead (stopNext s j no) := by
  have hst := g.stop
  rw [hp] at hst
  obtain ⟨hlt, hno⟩ := hst
  have hphn : ∀ i, CoreMngt.phase s.pend i = .norm := by intro i; rw [hp]; rfl
  have hstp : stopping s.pend = true := by rw [hp]; rfl
  unfold CoreMngt.stopNext
  cases hg : s.slots[j]? with
  | none =>
    refine Or.inl ?_
    simp only
    have hlen : s.slots.length ≤ j := by
      rcases Nat.lt_or_ge j s.slots.length with h1 | h1
      · rw [List.getElem?_eq_getElem h1] at hg; cases hg
      · exact h1
    refine g.pend rfl rfl rfl rfl id rfl rfl rfl rfl rfl rfl (by rw [hstp]; rfl) ?_ (fun _ _ h => (by cases h)) ?_
      (by intro h; cases h)
    · intro i x _ hx
      rw [hphn i] at hx
      exact hx
    · show nAdded s.slots = 0
      apply nAdded_zero
      intro k x hx
      refine hlt k x hx ?_
      rcases Nat.lt_or_ge k s.slots.length with h1 | h1
      · omega
      · rw [List.getElem?_eq_none h1] at hx; cases hx
  | some sl =>
    simp only
    have hx := g.slots j sl hg
    rw [hphn j, hstp] at hx
    by_cases e1 : sl.added = false
    · rw [if_pos e1]
      refine Or.inl ?_
      refine g.pend rfl rfl rfl rfl id rfl rfl rfl rfl rfl rfl (by rw [hstp]; rfl) ?_ (fun _ _ h => (by cases h)) ?_
        (by intro h; cases h)
      · intro i x _ hx
        rw [hphn i] at hx
        exact hx
      · refine ⟨?_, hno⟩
        intro k x hk hkj
        by_cases e : k = j
        · subst e; rw [hg] at hk; cases hk; exact e1
        · exact hlt k x hk (by omega)
    · rw [if_neg e1]
      have ha : sl.added = true := by simpa using e1
      have hval := hx.val ha
      have hvol := hx.volA (Or.inl ha)
      have hcnt : sl.counters = true := by rw [hx.cnt]; exact ha
      have hcut : sl.cutoff = true := by rw [hx.cut]; exact ha
      by_cases e2 : sl.opened = true ∧ sl.front.typ = false
      · rw [if_pos e2]
        refine Or.inr ⟨rfl, ?_, rfl⟩
        show s.fe = true
        cases h : s.fe
        · have := hx.frA e2.1 h
          rw [this] at e2
          cases e2.2
        · rfl
      · rw [if_neg e2]
        refine Or.inl ?_
        have hset : ∀ (y : Slot), y.added = false →
            (∀ (k : Nat) (z : Slot), (s.slots.set j y)[k]? = some z → k ≤ j → z.added = false) ∧
            nAdded (s.slots.set j y) + 1 = (no : Int) := by
          intro y hy
          refine ⟨?_, ?_⟩
          · intro k z hz hkj
            rcases get_set hg hz with ⟨_, b⟩ | ⟨a, b⟩
            · rw [b]; exact hy
            · exact hlt k z b (by omega)
          · rw [nAdded_set _ _ _ _ hg, hy, ha, hno]; simp [b2i]
        by_cases ho : sl.opened = true
        · rw [if_pos ho]
          refine g.upd (x := sl) (y := sl.fromCache) hg ?_ ?_ ?_ ?_ ?_ ?_ ?_ ?_ ?_ ?_ ?_ ?_ ?_ ?_ ?_ ?_ ?_ ?_ ?_
          · simp only [fromCache, ho, if_true]
          · simp only [fromCache, ho, if_true, CoreMngt.phase, stopping]
            refine ⟨hx.bit, fun h => (by cases h), fun _ h => (by cases h), rfl, rfl, fun _ => Or.inr rfl,
              fun _ => ⟨rfl, ho⟩, fun h => (by cases h), fun h => (by cases h), fun h => (by cases h),
              fun _ => hvol, hx.volO, ?_, hx.frA, hx.frN, hx.ioF, ?_, fun h => (by cases h), hx.clS, ?_, hx.dat2⟩
            · intro _ h
              have h' : sl.opened = false := h
              rw [ho] at h'; cases h'
            · intro _ h
              have h' : sl.io ≠ 0 := h
              simp [h']
            · intro _ h
              rcases h with h | h
              · have h' : sl.valid = false := h
                rw [hval] at h'; cases h'
              · cases h
          · simp only [fromCache, ho, if_true]
          · rw [hstp]; rfl
          · intro i hi
            rw [hphn i]
            simp [CoreMngt.phase, Ne.symm hi]
          · simp only [fromCache, ho, if_true]; exact id
          · simp only [fromCache, ho, if_true]; exact id
          · simp only [fromCache, ho, if_true]; intro h; simp [h]
          · simp only [fromCache, ho, if_true]
            show s.count = s.count + b2i sl.valid - b2i sl.valid
            omega
          · simp only [fromCache, ho, if_true]
            simp [Slot.fromCache, b2i]
          · simp only [fromCache, ho, if_true]; exact g.inc
          · intro h; cases h
          · exact g.keepUuid hg (fun h => h) rfl
          · simp only [fromCache, ho, if_true]; exact g.crash
          · simp only [fromCache, ho, if_true]; exact g.leaked
          · simp only [fromCache, ho, if_true]
            intro h
            have : s.uaf = true := by simpa [hcnt, hcut] using h
            rcases g.uaf this with h | h
            · left; simp [h]
            · right; exact h
          · intro _ _ h; cases h
          · simp only [fromCache, ho, if_true]
            exact hset _ rfl
          · intro h; cases h
        · rw [if_neg ho]
          have ho' : sl.opened = false := by simpa using ho
          have hv1 : sl.fromCache.hasVol = true := hvol.1
          have hle := g.less (nInact_pos hg ha ho')
          rw [deinit_inactive (x := sl.fromCache) ho' hv1]
          unfold stopAfter
          refine g.upd (x := sl) (y := { sl.fromCache with vol := sl.vol.deinit }) hg ?_ ?_ ?_ ?_ ?_ ?_ ?_ ?_ ?_ ?_
            ?_ ?_ ?_ ?_ ?_ ?_ ?_ ?_ ?_
          · simp only [fromCache, ho', lessInactive]
            exact List.set_set ..
          · simp only [after_phase, after_stop]
            have hbu : (fromCache { s with busy := s.busy || decide (sl.io ≠ 0) } j sl).busy =
                (s.busy || decide (sl.io ≠ 0)) := by simp [fromCache, ho', lessInactive]
            have h1 : (fromCache { s with busy := s.busy || decide (sl.io ≠ 0) } j sl).attached = s.attached := by
              simp [fromCache, ho', lessInactive]
            have h2 : (fromCache { s with busy := s.busy || decide (sl.io ≠ 0) } j sl).fe = s.fe := by
              simp [fromCache, ho', lessInactive]
            have h3 : (fromCache { s with busy := s.busy || decide (sl.io ≠ 0) } j sl).li = s.li := by
              simp [fromCache, ho', lessInactive]
            rw [hbu, h1, h2, h3]
            refine ⟨hx.bit, fun h => (by cases h), fun _ h => (by cases h), rfl, rfl, ?_,
              fun h => (by cases h), fun h => (by cases h), fun h => (by cases h), fun h => (by cases h),
              ?_, hx.volO, fun _ _ => rfl, hx.frA, hx.frN, hx.ioF, ?_, fun h => (by cases h), hx.clS, ?_, hx.dat2⟩
            · intro h
              have h' : sl.opened = true := h
              exact absurd h' ho
            · intro h
              rcases h with h | h
              · cases h
              · have h' : sl.opened = true := h
                exact absurd h' ho
            · intro h
              rcases h with h | h <;> cases h
            · intro _ h
              rcases h with h | h
              · have h' : sl.valid = false := h
                rw [hval] at h'; cases h'
              · cases h
          · simp [fromCache, ho', lessInactive]
          · simp only [after_stop, hstp]
          · intro i hi
            simp only [after_phase, hphn]
          · simp [fromCache, ho', lessInactive]
          · simp [fromCache, ho', lessInactive]
          · simp only [fromCache, ho', lessInactive]; intro h; simp [h]
          · simp only [fromCache, ho', lessInactive]
            show s.count = s.count + b2i sl.valid - b2i sl.valid
            omega
          · simp [fromCache, ho', lessInactive, Slot.fromCache, ha, b2i]
          · simp only [fromCache, ho', lessInactive]; exact hle
          · intro h; cases h
          · exact g.keepUuid hg (fun h => h) rfl
          · simp only [fromCache, ho', lessInactive]; exact g.crash
          · simp only [fromCache, ho', lessInactive]; exact g.leaked
          · simp only [fromCache, ho', lessInactive]
            intro h
            have : s.uaf = true := by simpa [hcnt, hcut] using h
            rcases g.uaf this with h | h
            · left; simp [h]
            · right; exact h
          · intro _ _ h
            simp only [after_lag] at h; cases h
          · have hss : (fromCache { s with busy := s.busy || decide (sl.io ≠ 0) } j sl).slots.set j
                { sl.fromCache with vol := sl.vol.deinit } = s.slots.set j { sl.fromCache with vol := sl.vol.deinit } := by
              simp only [fromCache, ho', lessInactive]
              exact List.set_set ..
            show StopOk ((fromCache { s with busy := s.busy || decide (sl.io ≠ 0) } j sl).slots.set j
                { sl.fromCache with vol := sl.vol.deinit }) _
            rw [hss]
            have := hset { sl.fromCache with vol := sl.vol.deinit } rfl
            exact stopAfter_ok this.1 this.2
          · show (if no = 1 then Pend.stopped else .stop (j + 1) (no - 1)) ≠ .failed
            by_cases e : no = 1
            · rw [if_pos e]; intro h; cases h
            · rw [if_neg e]; intro h; cases h

theorem G.stopClose {s : St} {j no : Nat} {sl : Slot} (g : G s) (hp : s.pend = .stopClose j no)
    (hg : s.slots[j]? = some sl) (hio : sl.io = 0) : G (stopClose s j no sl) := by
  have hx := g.slots j sl hg
  rw [hp] at hx
  simp only [CoreMngt.phase, stopping, if_true] at hx
  have hc := hx.cls rfl
  have hvol := hx.volA (Or.inr hc.2)
  have hst := g.stop
  rw [hp] at hst
  unfold CoreMngt.stopClose stopAfter
  rw [deinit_closed hc.2 hvol.1]
  refine g.upd (x := sl)
    (y := { sl with front := sl.front.close.deinit, vol := sl.vol.close.deinit, opened := false }) hg rfl ?_ rfl ?_ ?_
    id id id ?_ ?_ g.inc ?_ ?_ g.crash g.leaked g.uaf ?_ ?_ ?_
  · simp only [after_phase, after_stop]
    refine ⟨hx.bit, hx.val, hx.adv, hx.cnt, hx.cut, fun h => (by cases h), fun h => (by cases h),
      fun h => (by cases h), fun h => (by cases h), fun h => (by cases h), ?_, rfl, fun _ _ => rfl,
      fun h => (by cases h), fun _ _ => ⟨rfl, rfl⟩, fun _ h => absurd hio h, fun _ h => absurd hio h,
      hx.cln, hx.clS, ?_, hx.dat2⟩
    · intro h
      rcases h with h | h
      · have h' : sl.added = true := h
        rw [hc.1] at h'; cases h'
      · cases h
    · intro h h1
      rcases h1 with h1 | h1
      · exact hx.dat h (Or.inl h1)
      · cases h1
  · simp only [after_stop, hp]; rfl
  · intro i hi
    simp only [after_phase, hp]
    simp [CoreMngt.phase, Ne.symm hi]
  · show s.count = s.count + b2i sl.valid - b2i sl.valid
    omega
  · show s.inactive = s.inactive + b2i (sl.added && !false) - b2i (sl.added && !sl.opened)
    rw [hc.1]; simp
  · intro h
    have h' : sl.added = true := h
    rw [hc.1] at h'; cases h'
  · exact g.keepUuid hg (fun h => h) rfl
  · intro _ _ h
    simp only [after_lag] at h; cases h
  · apply stopAfter_ok
    · intro k z hz hkj
      rcases get_set hg hz with ⟨_, b⟩ | ⟨_, b⟩
      · rw [b]; exact hc.1
      · exact hst.1 k z b hkj
    · have hna := nAdded_set s.slots j sl
        { sl with front := sl.front.close.deinit, vol := sl.vol.close.deinit, opened := false } hg
      simp only at hna
      have h2 := hst.2
      show nAdded (s.slots.set j _) + 1 = _
      rw [hna]; omega
  · show (if no = 1 then Pend.stopped else .stop (j + 1) (no - 1)) ≠ .failed
    by_cases e : no = 1
    · rw [if_pos e]; intro h; cases h
    · rw [if_neg e]; intro h; cases h

/-! ### Requests -/

/-- Only `data` and `io` of a place change. -/
theorem G.quiet {s s' : St} {k : Nat} {x y : Slot} (g : G s) (hg : s.slots[k]? = some x)
    (hy : ∃ d n, y = { x with data := d, io := n } ∧
      (d = true → s.attached = true) ∧
      (d = true → x.valid = false ∨ phase s.pend k = .body → s'.busy = true ∨ s.li = true) ∧
      (s.li = false → n ≠ 0 → x.front.opened = true) ∧
      (phase s.pend k = .closing ∨ phase s.pend k = .body → n ≠ 0 → s'.busy = true))
    (hs : s'.slots = s.slots.set k y)
    (ha : s'.attached = s.attached) (h1 : s'.fe = s.fe) (h2 : s'.li = s.li)
    (h3 : s.busy = true → s'.busy = true) (hc : s'.count = s.count) (hi : s'.inactive = s.inactive)
    (hinc : s'.incomplete = s.incomplete) (hcr : s'.crash = s.crash) (hl : s'.leaked = s.leaked)
    (huf : s'.uaf = true → s'.busy = true ∨ s.li = true) (hp : s'.pend = s.pend)
    (hsb : s'.sb = s.sb) (hsl : s'.stale = s.stale) : G s' := by
  have hx := g.slots k x hg
  obtain ⟨d, n, rfl, hd, hd2, hn, hnb⟩ := hy
  refine g.upd hg hs ?_ ha (by rw [hp]) (fun _ _ => by rw [hp]) (by rw [h1]; exact id)
    (by rw [h2]; exact id) h3 ?_ ?_ ?_ ?_ ?_ (by rw [hcr, h1]; exact g.crash) (by rw [hl, h2]; exact g.leaked)
    (by rw [h2]; exact huf) ?_ ?_ (by rw [hp]; exact g.nfail)
  · rw [ha, h1, h2, hp]
    exact ⟨hx.bit, hx.val, hx.adv, hx.cnt, hx.cut, hx.opn, hx.cls, hx.bod, hx.dtp, hx.gon, hx.volA, hx.volO,
      hx.volN, hx.frA, hx.frN, hn, hnb, hx.cln, hx.clS, hd2, hd⟩
  · rw [hc]; show s.count = s.count + b2i x.valid - b2i x.valid; omega
  · rw [hi]
    show s.inactive = s.inactive + b2i (x.added && !x.opened) - b2i (x.added && !x.opened)
    omega
  · rw [hinc, hi]; exact g.inc
  · exact g.keepName hg (fun h => h) rfl
  · exact g.keepUuid hg (fun h => h) rfl
  · intro a b c
    rw [ha] at a
    rw [hsl] at b
    rw [hp] at c
    rw [hsb, hs]
    exact (g.sb a b c).trans (image_set _ _ _ _ hg (by rfl)).symm
  · rw [hs, hp]; exact g.stop.set hg rfl

theorem closing_frozen {p : Pend} {k : Nat} (h : phase p k = .closing) : frozen p k = true := by
  cases p with
  | rmClose i =>
    by_cases e : i = k
    · simp [frozen, e]
    · simp [CoreMngt.phase, e] at h
  | stopClose i _ =>
    by_cases e : i = k
    · simp [frozen, e]
    · simp [CoreMngt.phase, e] at h
  | rmBody i => by_cases e : i = k <;> simp [CoreMngt.phase, e] at h
  | rmFlush i => by_cases e : i = k <;> simp [CoreMngt.phase, e] at h
  | dtClose i => by_cases e : i = k <;> simp [CoreMngt.phase, e] at h
  | _ => cases h

theorem body_removing {p : Pend} {k : Nat} (h : phase p k = .body) : removing p k = true := by
  cases p with
  | rmBody i =>
    by_cases e : i = k
    · simp [removing, e]
    · simp [CoreMngt.phase, e] at h
  | rmClose i => by_cases e : i = k <;> simp [CoreMngt.phase, e] at h
  | stopClose i _ => by_cases e : i = k <;> simp [CoreMngt.phase, e] at h
  | rmFlush i => by_cases e : i = k <;> simp [CoreMngt.phase, e] at h
  | dtClose i => by_cases e : i = k <;> simp [CoreMngt.phase, e] at h
  | _ => cases h

theorem G.ioStart {s : St} {k : Nat} {sl : Slot} (g : G s) (hg : s.slots[k]? = some sl)
    (ho : sl.front.opened = true) (hf : frozen s.pend k = false) : G (ioStart s k sl) := by
  have hx := g.slots k sl hg
  unfold CoreMngt.ioStart
  refine g.quiet hg ⟨sl.data, sl.io + 1, rfl, hx.dat2, ?_, fun _ _ => ho, ?_⟩ rfl rfl rfl rfl ?_ rfl rfl rfl rfl rfl
    ?_ rfl rfl rfl
  · intro h1 h2
    rcases hx.dat h1 h2 with h | h
    · left; simp [h]
    · right; exact h
  · intro h _
    have : removing s.pend k = true := by
      rcases h with h | h
      · rw [closing_frozen h] at hf; cases hf
      · exact body_removing h
    simp [this]
  · intro h; simp [h]
  · intro h
    rcases g.uaf h with h | h
    · left; simp [h]
    · right; exact h

/-- A request of a core that is not added is one of a core being removed with I/O under way, or of one whose
front volume was left open. -/
theorem io_not_added {att fe li busy stp : Bool} {ph : Ph} {x : Slot} (hx : SOk att fe li busy stp ph x)
    (hi : x.io ≠ 0) (ha : x.added = false) : busy = true ∨ li = true := by
  cases hl : li
  · cases ho : x.opened
    · have h1 := hx.ioF hl hi
      rw [(hx.frN ho hl).2] at h1; cases h1
    · rcases hx.opn ho with h | h
      · rw [ha] at h; cases h
      · exact Or.inl (hx.iob (Or.inl h) hi)
  · exact Or.inr rfl

theorem G.ioWork {s : St} {k : Nat} {sl : Slot} {d : Bool} (g : G s) (hg : s.slots[k]? = some sl)
    (hi : sl.io ≠ 0) : G (ioWork s k sl d) := by
  have hx := g.slots k sl hg
  unfold CoreMngt.ioWork
  refine g.quiet hg ⟨sl.data || (d && s.attached), sl.io, rfl, ?_, ?_, hx.ioF, hx.iob⟩ rfl rfl rfl rfl id rfl rfl rfl
    rfl rfl ?_ rfl rfl rfl
  · intro h
    simp only [Bool.or_eq_true, Bool.and_eq_true] at h
    rcases h with h | h
    · exact hx.dat2 h
    · exact h.2
  · intro _ h
    rcases h with h | h
    · refine io_not_added hx hi ?_
      cases e : sl.added
      · rfl
      · rw [hx.val e] at h; cases h
    · exact Or.inl (hx.iob (Or.inr h) hi)
  · intro h
    cases ha : sl.added
    · exact io_not_added hx hi ha
    · have hcnt : sl.counters = true := by rw [hx.cnt]; exact ha
      have hcut : sl.cutoff = true := by rw [hx.cut]; exact ha
      apply g.uaf
      simpa [hcnt, hcut] using h

theorem G.ioEnd {s : St} {k : Nat} {sl : Slot} (g : G s) (hg : s.slots[k]? = some sl)
    (hi : sl.io ≠ 0) : G (ioEnd s k sl) := by
  have hx := g.slots k sl hg
  unfold CoreMngt.ioEnd
  exact g.quiet hg ⟨sl.data, sl.io - 1, rfl, hx.dat2, hx.dat, fun h _ => hx.ioF h hi, fun h _ => hx.iob h hi⟩
    rfl rfl rfl rfl id rfl rfl rfl rfl rfl g.uaf rfl rfl rfl

theorem G.clean {s : St} {k : Nat} {sl : Slot} (g : G s) (hg : s.slots[k]? = some sl) : G (clean s k sl) := by
  have hx := g.slots k sl hg
  unfold CoreMngt.clean
  exact g.quiet hg ⟨false, sl.io, rfl, fun h => (by cases h), fun h => (by cases h), hx.ioF, hx.iob⟩
    rfl rfl rfl rfl id rfl rfl rfl rfl rfl g.uaf rfl rfl rfl

/-! ### Loading -/

/-- A core after a load that went well. -/
def loaded (n u : Nat) (o : Bool) : Slot :=
  { name := n, uuid := u, valid := true, bit := true, added := true, opened := o,
    hasVol := true, vol := ⟨true, true, o⟩, front := ⟨true, true, true⟩,
    counters := true, cutoff := true, cleaning := true, data := false, io := 0 }

theorem loadOne_ok {oc : Bool} {i : LoadIn} {n u : Nat}
    (h : (loadOne oc i (Slot.ofMeta (some (n, u)))).2 ≠ .err) :
    ∃ o, (loadOne oc i (Slot.ofMeta (some (n, u)))).1 = loaded n u o ∧
      ((loadOne oc i (Slot.ofMeta (some (n, u)))).2 = .inactive ↔ o = false) ∧
      o = (i.pool || (oc && i.volOpen)) := by
  unfold loadOne at h ⊢
  by_cases e1 : i.volInit ≠ .ok
  · rw [if_pos e1] at h; exact absurd rfl h
  rw [if_neg e1] at h ⊢
  simp only at h ⊢
  by_cases e2 : (CoreMngt.frontInit (loadVol oc i (Slot.ofMeta (some (n, u)))).front i.frontInit i.frontOpen).1 = false
  · rw [if_pos e2] at h; exact absurd rfl h
  rw [if_neg e2] at h ⊢
  have e2' : (CoreMngt.frontInit (loadVol oc i (Slot.ofMeta (some (n, u)))).front i.frontInit i.frontOpen).1 = true := by
    simpa using e2
  have hf := frontInit_ok e2'
  by_cases e3 : i.countersOk = false
  · rw [if_pos e3] at h; exact absurd rfl h
  rw [if_neg e3] at h ⊢
  by_cases e4 : i.cutoffOk = false
  · rw [if_pos e4] at h; exact absurd rfl h
  rw [if_neg e4] at h ⊢
  rw [hf] at h ⊢
  refine ⟨i.pool || (oc && i.volOpen), ?_⟩
  by_cases e5 : (i.pool || (oc && i.volOpen)) = false
  · rw [if_pos (by simpa [loadVol] using e5)]
    refine ⟨?_, ?_, rfl⟩
    · simp [loadVol, loaded, Slot.ofMeta, Slot.empty, Vol.init, e5]
    · simp [e5]
  · have e5' : (i.pool || (oc && i.volOpen)) = true := (Bool.not_eq_false _).mp e5
    rw [if_neg (by show ¬((i.pool || (oc && i.volOpen)) = false); exact e5)] at h ⊢
    by_cases e6 : i.lenOk = false
    · rw [if_pos e6] at h; exact absurd rfl h
    rw [if_neg e6]
    refine ⟨?_, ?_, rfl⟩
    · simp [loadVol, loaded, Slot.ofMeta, Slot.empty, Vol.init, e5']
    · simp [e5']

/-- Two lists of one length, related place by place. -/
inductive Both {α β : Type} (R : α → β → Prop) : List α → List β → Prop
  | nil : Both R [] []
  | cons {a : α} {b : β} {l : List α} {m : List β} (h : R a b) (t : Both R l m) : Both R (a :: l) (b :: m)

/-- What a load makes of the places. -/
def Loads (m : Option (Nat × Nat)) (y : Slot) : Prop :=
  (m = none ∧ y = Slot.empty) ∨ (∃ n u o, m = some (n, u) ∧ y = loaded n u o)

theorem loadAll_ok {oc : Bool} {ins : Nat → LoadIn} : ∀ (img : List (Option (Nat × Nat))) (k : Nat),
    (loadAll oc ins k img).2.2 = true →
    Both Loads img (loadAll oc ins k img).1 ∧
    nInact (loadAll oc ins k img).1 = ((loadAll oc ins k img).2.1 : Nat)
  | [], _ => fun _ => ⟨.nil, rfl⟩
  | m :: ms, k => by
    intro h
    unfold loadAll at h ⊢
    by_cases e : m = none
    · rw [if_pos e] at h ⊢
      simp only at h ⊢
      have ih := loadAll_ok ms (k + 1) h
      refine ⟨.cons (Or.inl ⟨e, by rw [e]; rfl⟩) ih.1, ?_⟩
      rw [← ih.2, e]
      simp [nInact, Slot.ofMeta, Slot.empty]
    · rw [if_neg e] at h ⊢
      simp only at h ⊢
      obtain ⟨⟨n, u⟩, rfl⟩ : ∃ p, m = some p := by
        cases m with
        | none => exact absurd rfl e
        | some p => exact ⟨p, rfl⟩
      by_cases e2 : (loadOne oc (ins k) (Slot.ofMeta (some (n, u)))).2 = .err
      · rw [if_pos e2] at h; cases h
      rw [if_neg e2] at h ⊢
      obtain ⟨o, h1, h2, _⟩ := loadOne_ok e2
      have ih := loadAll_ok ms (k + 1) h
      refine ⟨.cons (Or.inr ⟨n, u, o, rfl, h1⟩) ih.1, ?_⟩
      have ih2 := ih.2
      unfold nInact at ih2 ⊢
      simp only [List.countP_cons, h1]
      cases o
      · rw [if_pos (h2.mpr rfl)]
        simp [loaded] at ih2 ⊢
        omega
      · have hne : ¬(loadOne oc (ins k) (Slot.ofMeta (some (n, u)))).2 = .inactive := by
          intro h; have := h2.mp h; cases this
        rw [if_neg hne]
        simp [loaded] at ih2 ⊢
        omega

theorem forall2_get {α β : Type} {R : α → β → Prop} {l : List α} {m : List β} (h : Both R l m) :
    ∀ (k : Nat) (y : β), m[k]? = some y → ∃ x, l[k]? = some x ∧ R x y := by
  induction h with
  | nil => intro k y h; cases k <;> cases h
  | cons hr _ ih =>
    intro k y hk
    cases k with
    | zero => cases hk; exact ⟨_, rfl, hr⟩
    | succ k => exact ih k y hk

theorem loads_image {img : List (Option (Nat × Nat))} {l : List Slot} (h : Both Loads img l) :
    image l = img := by
  induction h with
  | nil => rfl
  | cons hr _ ih =>
    unfold image at ih ⊢
    rw [List.map_cons, ih]
    congr 1
    rcases hr with ⟨a, b⟩ | ⟨n, u, o, a, b⟩ <;> subst a b <;> rfl

theorem loads_valid {img : List (Option (Nat × Nat))} {l : List Slot} (h : Both Loads img l) :
    nValid l = (img.countP Option.isSome : Nat) := by
  induction h with
  | nil => rfl
  | cons hr _ ih =>
    unfold nValid at ih ⊢
    rw [List.countP_cons, List.countP_cons]
    rcases hr with ⟨a, b⟩ | ⟨n, u, o, a, b⟩ <;> subst a b <;> simp [Slot.empty, loaded] at ih ⊢ <;> omega

/-- A load that failed: nothing can be read or written, and the cache is as good as gone. -/
structure F (s : St) : Prop where
  pend : s.pend = .failed
  crash : s.crash = true → s.fe = true
  leaked : s.leaked ≠ 0 → s.li = true
  uaf : s.uaf = true → s.busy = true ∨ s.li = true
  off : ∀ (k : Nat) (sl : Slot), s.slots[k]? = some sl → sl.front.opened = false ∧ sl.io = 0

/-- No request can reach the place. -/
def Off (sl : Slot) : Prop := sl.front.opened = false ∧ sl.io = 0

theorem off_ofMeta (m : Option (Nat × Nat)) : Off (Slot.ofMeta m) := by
  cases m <;> exact ⟨rfl, rfl⟩

theorem deinitAdded_off {oc : Bool} {sl : Slot} (h : sl.added = false → sl.front.opened = false)
    (hi : sl.io = 0) : Off (sl.deinitAdded oc) := by
  unfold Slot.deinitAdded
  by_cases e : sl.added = false
  · rw [if_pos e]; exact ⟨h e, hi⟩
  rw [if_neg e]
  cases oc <;> cases ef : sl.front.opened <;> simp [Off, ef, hi, Vol.close, Vol.deinit]

theorem loadOne_off (oc : Bool) (i : LoadIn) (m : Option (Nat × Nat)) :
    ((loadOne oc i (Slot.ofMeta m)).1.added = false → (loadOne oc i (Slot.ofMeta m)).1.front.opened = false) ∧
    (loadOne oc i (Slot.ofMeta m)).1.io = 0 := by
  have hio : (Slot.ofMeta m).io = 0 := (off_ofMeta m).2
  have hfr : (Slot.ofMeta m).front.opened = false := (off_ofMeta m).1
  unfold loadOne
  by_cases e1 : i.volInit ≠ .ok
  · rw [if_pos e1]; exact ⟨fun _ => hfr, hio⟩
  rw [if_neg e1]
  simp only
  split
  · exact ⟨fun h => (by cases h), hio⟩
  split
  · exact ⟨fun h => (by cases h), hio⟩
  split
  · exact ⟨fun h => (by cases h), hio⟩
  split
  · exact ⟨fun h => (by cases h), hio⟩
  split
  · exact ⟨fun h => (by cases h), hio⟩
  · exact ⟨fun h => (by cases h), hio⟩

theorem loadAll_off {oc : Bool} {ins : Nat → LoadIn} : ∀ (img : List (Option (Nat × Nat))) (k : Nat),
    ∀ sl ∈ (loadAll oc ins k img).1, (sl.added = false → sl.front.opened = false) ∧ sl.io = 0
  | [], _ => by intro sl h; cases h
  | m :: ms, k => by
    intro sl h
    unfold loadAll at h
    have hm := off_ofMeta m
    by_cases e : m = none
    · rw [if_pos e] at h
      rcases List.mem_cons.mp h with h | h
      · rw [h]; exact ⟨fun _ => hm.1, hm.2⟩
      · exact loadAll_off ms (k + 1) sl h
    · rw [if_neg e] at h
      simp only at h
      by_cases e2 : (loadOne oc (ins k) (Slot.ofMeta m)).2 = .err
      · rw [if_pos e2] at h
        rcases List.mem_cons.mp h with h | h
        · rw [h]; exact loadOne_off oc (ins k) m
        · obtain ⟨a, _, rfl⟩ := List.mem_map.mp h
          exact ⟨fun _ => (off_ofMeta a).1, (off_ofMeta a).2⟩
      · rw [if_neg e2] at h
        rcases List.mem_cons.mp h with h | h
        · rw [h]; exact loadOne_off oc (ins k) m
        · exact loadAll_off ms (k + 1) sl h

theorem G.load {s : St} {oc : Bool} {ins : Nat → LoadIn} {img : List (Option (Nat × Nat))} (g : G s)
    (hid : s.pend = .idle)
    (hn : ∀ (a b : Nat) (n u v : Nat), img[a]? = some (some (n, u)) → img[b]? = some (some (n, v)) → a = b)
    (hu : ∀ (a b : Nat) (n m u : Nat), img[a]? = some (some (n, u)) → img[b]? = some (some (m, u)) → a = b) :
    G (load s oc ins img) ∨ F (load s oc ins img) := by
  unfold CoreMngt.load
  simp only
  by_cases e : (loadAll oc ins 0 img).2.2 = true
  · rw [if_pos e]
    left
    apply G.tell
    obtain ⟨h1, h2⟩ := loadAll_ok img 0 e
    have hget := forall2_get h1
    refine ⟨?_, ?_, ?_, ?_, ?_, ?_, g.crash, ?_, ?_, ?_, ?_, ?_⟩
    · intro k sl hk
      obtain ⟨m, hm, hr⟩ := hget k sl hk
      show SOk true s.fe _ s.busy (stopping s.pend) (CoreMngt.phase s.pend k) sl
      rw [hid]
      rcases hr with ⟨_, b⟩ | ⟨n, u, o, _, b⟩
      · subst b
        constructor <;> simp [Slot.empty, CoreMngt.phase, stopping]
      · subst b
        have hlo : o = false → (s.li || decide ((loadAll oc ins 0 img).2.1 ≠ 0)) = true := by
          intro ho
          have : 1 ≤ nInact (loadAll oc ins 0 img).1 := nInact_pos hk rfl ho
          have : (loadAll oc ins 0 img).2.1 ≠ 0 := by omega
          simp [this]
        constructor <;> simp [loaded, CoreMngt.phase, stopping]
        intro ho hli
        have := hlo ho
        rw [hli] at this
        simpa using this
    · exact (loads_valid h1).symm
    · exact h2.symm
    · show decide _ = decide _
      congr 1
      simp
    · intro a b x y ha hb xa ya exy
      obtain ⟨m, hm, hr⟩ := hget a x ha
      obtain ⟨m', hm', hr'⟩ := hget b y hb
      rcases hr with ⟨_, b⟩ | ⟨n, u, o, e1, b⟩
      · subst b; cases xa
      rcases hr' with ⟨_, b'⟩ | ⟨n', u', o', e1', b'⟩
      · subst b'; cases ya
      subst b b' e1 e1'
      have : n = n' := exy
      subst this
      exact hn _ _ _ _ _ hm hm'
    · intro a b x y ha hb xa ya exy
      obtain ⟨m, hm, hr⟩ := hget a x ha
      obtain ⟨m', hm', hr'⟩ := hget b y hb
      rcases hr with ⟨_, b⟩ | ⟨n, u, o, e1, b⟩
      · subst b; cases xa
      rcases hr' with ⟨_, b'⟩ | ⟨n', u', o', e1', b'⟩
      · subst b'; cases ya
      subst b b' e1 e1'
      have : u = u' := exy
      subst this
      exact hu _ _ _ _ _ hm hm'
    · intro h
      have := g.leaked h
      simp [this]
    · intro h
      rcases g.uaf h with h | h
      · exact Or.inl h
      · right; simp [h]
    · intro _ _ _
      exact (loads_image h1).symm
    · show StopOk _ s.pend
      rw [hid]; trivial
    · show s.pend ≠ _
      rw [hid]; intro h; cases h
  · rw [if_neg e]
    right
    refine ⟨rfl, g.crash, g.leaked, g.uaf, ?_⟩
    intro k sl hk
    have hm := List.mem_of_getElem? hk
    obtain ⟨a, ha, rfl⟩ := List.mem_map.mp hm
    have := loadAll_off img 0 a ha
    exact deinitAdded_off this.1 this.2

/-! ### Every step -/

/-- The invariant. -/
def Inv (s : St) : Prop := G s ∨ F s ∨ Dead s

theorem Inv.of_GD {s : St} (h : G s ∨ Dead s) : Inv s := by
  rcases h with h | h
  · exact Or.inl h
  · exact Or.inr (Or.inr h)

theorem inv_fresh (n : Nat) : Inv (fresh n) := by
  left
  have hget : ∀ (k : Nat) (sl : Slot), (fresh n).slots[k]? = some sl → sl = Slot.empty := by
    intro k sl h
    have := List.mem_of_getElem? h
    exact List.eq_of_mem_replicate this
  refine ⟨?_, ?_, ?_, rfl, ?_, ?_, fun h => (by cases h), fun h => absurd rfl h, fun h => (by cases h),
    fun h => (by cases h), trivial, fun h => (by cases h)⟩
  · intro k sl h
    rw [hget k sl h]
    constructor <;> simp [Slot.empty, fresh, CoreMngt.phase, stopping]
  · show 0 = nValid (List.replicate n Slot.empty)
    simp [nValid, List.countP_replicate, Slot.empty]
  · show 0 = nInact (List.replicate n Slot.empty)
    simp [nInact, List.countP_replicate, Slot.empty]
  · intro a b x y ha _ xa
    rw [hget a x ha] at xa; cases xa
  · intro a b x y ha _ xa
    rw [hget a x ha] at xa; cases xa

theorem inv_step {s s' : St} (h : Inv s) (st : Step s s') : Inv s' := by
  rcases h with g | f | d
  · cases st with
    | add i hp => exact Or.inl (g.add hp)
    | tryAdd i hp => exact Or.inl (g.tryAdd hp)
    | rmStart k sl e hp hg ha => exact Or.inl (g.rmStart hp hg ha)
    | rmBody k sl hp hg => exact Inv.of_GD (g.rmBody hp hg)
    | rmClose k sl hp hg hi => exact Or.inl (g.rmClose hp hg hi)
    | rmFlush k r hp => exact Or.inl (g.rmFlush hp)
    | dtStart k sl hp hg ha => exact Inv.of_GD (g.dtStart hp hg ha)
    | dtClose k sl hp hg hi => exact Or.inl (g.dtClose hp hg hi)
    | stopStart hp => exact Or.inl (g.stopStart hp)
    | stopNext j no hp => exact Inv.of_GD (g.stopNext hp)
    | stopClose j no sl hp hg hi => exact Or.inl (g.stopClose hp hg hi)
    | attachCache hp ha => exact Or.inl (g.attachCache hp ha)
    | detachCache hp ha => exact Or.inl (g.detachCache hp)
    | load oc ins img hp h0 ha hl hn hu =>
      rcases g.load hp hn hu with h | h
      · exact Or.inl h
      · exact Or.inr (Or.inl h)
    | ioStart k sl hg ho hf => exact Or.inl (g.ioStart hg ho hf)
    | ioWork k sl d hg hi => exact Or.inl (g.ioWork hg hi)
    | ioEnd k sl hg hi => exact Or.inl (g.ioEnd hg hi)
    | clean k sl hg => exact Or.inl (g.clean hg)
  · have hp := f.pend
    cases st with
    | ioStart k sl hg ho hf => rw [(f.off k sl hg).1] at ho; cases ho
    | ioWork k sl d hg hi => exact absurd (f.off k sl hg).2 hi
    | ioEnd k sl hg hi => exact absurd (f.off k sl hg).2 hi
    | clean k sl hg =>
      refine Or.inr (Or.inl ⟨f.pend, f.crash, f.leaked, f.uaf, ?_⟩)
      intro j x hj
      rcases get_set hg hj with ⟨_, b⟩ | ⟨_, b⟩
      · rw [b]; exact f.off k sl hg
      · exact f.off j x b
    | _ => simp_all
  · obtain ⟨hp, hfe, hcr⟩ := d
    refine Or.inr (Or.inr ?_)
    cases st with
    | ioStart k sl hg ho hf => exact ⟨hp, hfe, hcr⟩
    | ioWork k sl d hg hi => exact ⟨hp, hfe, hcr⟩
    | ioEnd k sl hg hi => exact ⟨hp, hfe, hcr⟩
    | clean k sl hg => exact ⟨hp, hfe, hcr⟩
    | _ => simp_all

theorem inv_reach {n : Nat} {s : St} (h : Reach (fun x => x = fresh n) Step s) : Inv s :=
  Reach.inv (P := Inv) (fun _ e => by rw [e]; exact inv_fresh n) (fun _ _ hi st => inv_step hi st) s h

end Verif.CoreMngt
