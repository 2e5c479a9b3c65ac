import Verif.Lemma.CoreMngtOps

/-!
C55: adding, attaching, detaching and removing cores, stopping the cache and loading it.
-/

namespace Verif.CoreMngt

/-! ### What is to hold -/

/-- A cache as it may become. -/
def Run (n : Nat) (s : St) : Prop := Reach (fun x => x = fresh n) Step s

/-- The cache is usable: no load failed, no NULL pointer was followed. -/
def Usable (s : St) : Prop := s.pend ≠ .failed ∧ s.crash = false

/-- The core at place `k` is on its way out, waiting for its requests. -/
def Leaving (s : St) (k : Nat) : Prop := s.pend = .rmClose k ∨ ∃ no, s.pend = .stopClose k no

/-- The cache is being stopped or is stopped. -/
def Stops (s : St) : Prop :=
  (∃ j no, s.pend = .stop j no) ∨ (∃ j no, s.pend = .stopClose j no) ∨ s.pend = .stopped

/-- The place has nothing allocated or open but maybe the front volume. -/
def NoCore (sl : Slot) : Prop :=
  sl.opened = false ∧ sl.vol.priv = false ∧ sl.vol.opened = false ∧ sl.counters = false ∧ sl.cutoff = false ∧
  sl.cleaning = false

/-- Nor a front volume, nor a request. -/
def NoFront (sl : Slot) : Prop := sl.front.priv = false ∧ sl.front.opened = false ∧ sl.io = 0

/-- The place has a core ready for requests. -/
def Ready (sl : Slot) : Prop :=
  sl.valid = true ∧ sl.bit = true ∧ sl.vol = ⟨true, true, true⟩ ∧ sl.front = ⟨true, true, true⟩ ∧
  sl.counters = true ∧ sl.cutoff = true

/-- The cores the cache says it has: of each place the name and uuid, if any. -/
def listed (s : St) : List (Option (Nat × Nat)) :=
  s.slots.map (fun sl => if sl.valid = true then some (sl.name, sl.uuid) else none)

/-- A step told this. -/
def Tells (s s' : St) (o : Op) (k : Option Nat) (ok : Bool) : Prop := s'.told = s.told ++ [(o, k, ok)]

/-- Nothing but place `k` changed. -/
def Only (s s' : St) (k : Nat) : Prop :=
  s'.slots.length = s.slots.length ∧ ∀ j, j ≠ k → s'.slots[j]? = s.slots[j]?

theorem tell_pos {s : St} {o o' : Op} {k k' : Option Nat} {b b' : Bool}
    (h : s.told ++ [(o, k, b)] = s.told ++ [(o', k', b')]) : o = o' ∧ k = k' ∧ b = b' := by
  have := last_eq h
  simp only [Prod.mk.injEq] at this
  exact this

theorem listed_image (s : St) : listed s = image s.slots := rfl

theorem good {n : Nat} {s : St} (h : Run n s) (hu : Usable s) : G s := by
  rcases inv_reach h with g | f | d
  · exact g
  · exact absurd f.pend hu.1
  · have := hu.2; rw [d.2.2] at this; cases this

theorem stops_iff (s : St) : Stops s ↔ stopping s.pend = true := by
  unfold Stops stopping
  cases s.pend <;> simp

theorem leaving_of {s : St} {k : Nat} (h : phase s.pend k = .closing) : Leaving s k := by
  unfold Leaving
  cases hp : s.pend with
  | rmClose i =>
    by_cases e : i = k
    · left; rw [e]
    · rw [hp] at h; simp [phase, e] at h
  | stopClose i no =>
    by_cases e : i = k
    · right; exact ⟨no, by rw [e]⟩
    · rw [hp] at h; simp [phase, e] at h
  | rmBody i => rw [hp] at h; by_cases e : i = k <;> simp [phase, e] at h
  | rmFlush i => rw [hp] at h; by_cases e : i = k <;> simp [phase, e] at h
  | dtClose i => rw [hp] at h; by_cases e : i = k <;> simp [phase, e] at h
  | _ => rw [hp] at h; cases h

theorem noCore_of {s : St} (g : G s) {k : Nat} {sl : Slot} (hg : s.slots[k]? = some sl)
    (ha : sl.added = false) (hl : ¬Leaving s k) :
    NoCore sl ∧ (s.li = false → NoFront sl) := by
  have hx := g.slots k sl hg
  have ho : sl.opened = false := by
    cases e : sl.opened
    · rfl
    · rcases hx.opn e with h | h
      · rw [ha] at h; cases h
      · exact absurd (leaving_of h) hl
  refine ⟨⟨ho, hx.volN ha ho, by rw [hx.volO, ho], by rw [hx.cnt, ha], by rw [hx.cut, ha], ?_⟩, ?_⟩
  · cases e : stopping s.pend
    · rw [hx.cln e, ha, Bool.and_false]
    · exact hx.clS e
  · intro hli
    have hf := hx.frN ho hli
    refine ⟨hf.1, hf.2, ?_⟩
    cases e : sl.io with
    | zero => rfl
    | succ m =>
      have := hx.ioF hli (by rw [e]; omega)
      rw [hf.2] at this; cases this

/-! ### At all times -/

/-- `core_count` is the number of cores the superblock names, the count of inactive cores is the number of added
cores that are not open, and the cache is incomplete exactly if there are some. -/
theorem counted {n : Nat} {s : St} (h : Run n s) (hu : Usable s) :
    s.count = (s.slots.countP (fun sl => sl.valid) : Nat) ∧
    s.inactive = (s.slots.countP (fun sl => sl.added && !sl.opened) : Nat) ∧
    (s.incomplete = true ↔ s.inactive ≠ 0) := by
  have g := good h hu
  refine ⟨g.count, g.inact, ?_⟩
  rw [g.inc]; simp

/-- No two cores have one name or one uuid. -/
theorem distinct {n : Nat} {s : St} (h : Run n s) (hu : Usable s) (a b : Nat) (x y : Slot)
    (ha : s.slots[a]? = some x) (hb : s.slots[b]? = some y) (xa : x.added = true) (ya : y.added = true)
    (e : x.name = y.name ∨ x.uuid = y.uuid) : a = b := by
  have g := good h hu
  rcases e with e | e
  · exact g.names a b x y ha hb xa ya e
  · exact g.uuids a b x y ha hb ((g.slots a x ha).val xa) ((g.slots b y hb).val ya) e

/-- A core that is open has all it needs, and the cleaning policy knows it if there is a device. Missing: a core of
which the attach failed in its last step, see `attach_error_opens`. -/
theorem open_ready_partial {n : Nat} {s : St} (h : Run n s) (hu : Usable s) (hfe : s.fe = false) (k : Nat)
    (sl : Slot) (hg : s.slots[k]? = some sl) (ha : sl.added = true) (ho : sl.opened = true) :
    Ready sl ∧ (¬Stops s → sl.cleaning = s.attached) := by
  have g := good h hu
  have hx := g.slots k sl hg
  have hv := hx.volA (Or.inl ha)
  refine ⟨⟨hx.val ha, by rw [hx.bit]; exact hx.val ha, ?_, hx.frA ho hfe, by rw [hx.cnt]; exact ha,
    by rw [hx.cut]; exact ha⟩, ?_⟩
  · have := hx.volO
    rw [ho] at this
    cases hvol : sl.vol
    rw [hvol] at hv this
    simp_all
  · intro hs
    have : stopping s.pend = false := by
      cases e : stopping s.pend
      · rfl
      · exact absurd ((stops_iff s).mpr e) hs
    rw [hx.cln this, ha, Bool.and_true]

/-- A place without a core holds nothing: neither memory nor an open volume. Missing: the front volume, after a load
that left a core inactive, see `inactive_front_left`; a load that failed, see `load_error_leaks`. -/
theorem released_partial {n : Nat} {s : St} (h : Run n s) (hu : Usable s) (k : Nat) (sl : Slot)
    (hg : s.slots[k]? = some sl) (ha : sl.added = false) (hl : ¬Leaving s k) :
    NoCore sl ∧ (s.li = false → NoFront sl) := noCore_of (good h hu) hg ha hl

/-- No NULL pointer is followed. Missing: an attach failed in its last step, see `attach_error_crash`. -/
theorem no_crash_partial {n : Nat} {s : St} (h : Run n s) (hfe : s.fe = false) : s.crash = false := by
  cases hc : s.crash
  · rfl
  · rcases inv_reach h with g | f | d
    · have := g.crash hc; rw [hfe] at this; cases this
    · have := f.crash hc; rw [hfe] at this; cases this
    · have := d.2.1; rw [hfe] at this; cases this

/-- No allocation is overwritten. Missing: after a load that left a core inactive, see `inactive_front_leaks`. -/
theorem no_leak_partial {n : Nat} {s : St} (h : Run n s) (hfe : s.fe = false) (hli : s.li = false) :
    s.leaked = 0 := by
  cases hl : s.leaked with
  | zero => rfl
  | succ m =>
    exfalso
    have hl' : s.leaked ≠ 0 := by omega
    rcases inv_reach h with g | f | d
    · have := g.leaked hl'; rw [hli] at this; cases this
    · have := f.leaked hl'; rw [hli] at this; cases this
    · have := d.2.1; rw [hfe] at this; cases this

/-- Freed memory is not used. Missing: a core is removed, or the cache stopped, with I/O under way, see
`remove_busy_uses_freed`; after a load that left a core inactive, see `inactive_front_left`. -/
theorem no_use_freed_partial {n : Nat} {s : St} (h : Run n s) (hfe : s.fe = false) (hli : s.li = false)
    (hb : s.busy = false) : s.uaf = false := by
  cases hu : s.uaf
  · rfl
  · rcases inv_reach h with g | f | d
    · rcases g.uaf hu with c | c
      · rw [hb] at c; cases c
      · rw [hli] at c; cases c
    · rcases f.uaf hu with c | c
      · rw [hb] at c; cases c
      · rw [hli] at c; cases c
    · have := d.2.1; rw [hfe] at this; cases this

/-- The superblock on the device names the cores of the cache, whenever no operation is under way and the last
write of it did not fail. Missing: an add that failed after the write, see `add_error_on_device`. -/
theorem device_current_partial {n : Nat} {s : St} (h : Run n s) (hu : Usable s) (hid : s.pend = .idle)
    (ha : s.attached = true) (hs : s.stale = false) : s.sb = listed s :=
  (good h hu).sb ha hs (by rw [hid]; rfl)

/-- Data that only the cache has is of a core it names. Missing: as for `no_use_freed_partial`. -/
theorem data_has_core_partial {n : Nat} {s : St} (h : Run n s) (hu : Usable s) (hb : s.busy = false)
    (hli : s.li = false) (k : Nat) (sl : Slot) (hg : s.slots[k]? = some sl) (hd : sl.data = true) :
    sl.valid = true ∧ s.attached = true := by
  have hx := (good h hu).slots k sl hg
  refine ⟨?_, hx.dat2 hd⟩
  cases e : sl.valid
  · rcases hx.dat hd (Or.inl e) with c | c
    · rw [hb] at c; cases c
    · rw [hli] at c; cases c
  · rfl

/-- A stopped cache has no core, and nothing of one. -/
theorem stopped_clean {n : Nat} {s : St} (h : Run n s) (hu : Usable s) (hst : s.pend = .stopped) (k : Nat)
    (sl : Slot) (hg : s.slots[k]? = some sl) :
    sl.added = false ∧ NoCore sl ∧ (s.li = false → NoFront sl) := by
  have g := good h hu
  have hs := g.stop
  rw [hst] at hs
  have ha := added_zero hs k sl hg
  refine ⟨ha, noCore_of g hg ha ?_⟩
  rintro (h | ⟨_, h⟩) <;> rw [hst] at h <;> cases h

/-! ### Adding -/

theorem add_told {n : Nat} {s : St} (h : Run n s) (hu : Usable s) (hid : s.pend = .idle) (i : AddIn) :
    (∃ k x y, s.slots[k]? = some x ∧ Free x ∧ findFree s.slots = some k ∧ Tells s (add s i) .add (some k) true ∧
      Added s (add s i) i k y ∧ Rest s (add s i) ∧
      (∀ (j : Nat) (z : Slot), s.slots[j]? = some z → z.added = true → z.name ≠ i.name) ∧
      (∀ (j : Nat) (z : Slot), s.slots[j]? = some z → z.valid = true → z.uuid ≠ i.uuid)) ∨
    (∃ k x y, s.slots[k]? = some x ∧ Free x ∧ Tells s (add s i) .add (some k) false ∧
      NotAdded s (add s i) k y ∧ Rest s (add s i)) ∨
    (add s i = tell s .add none false) := by
  have g := good h hu
  unfold CoreMngt.add
  split
  · exact Or.inr (Or.inr rfl)
  · rename_i hn
    split
    · exact Or.inr (Or.inr rfl)
    · rename_i hu
      split
      · exact Or.inr (Or.inr rfl)
      · rename_i k hf
        split
        · exact Or.inr (Or.inr rfl)
        · rename_i sl hg
          have hb := findFree_spec hf hg
          have hx := g.slots k sl hg
          rw [hid] at hx
          have fx : Free sl := SOk.free hx hb
          obtain ⟨hr, h1 | h1⟩ := addAt_spec (s := s) (i := i) (k := k) fx
          · obtain ⟨y, ht, hy⟩ := h1
            refine Or.inl ⟨k, sl, y, hg, fx, hf, ht, hy, hr, ?_, ?_⟩
            · intro j z hz za e
              have := any_false hn j z hz
              simp [za, e] at this
            · intro j z hz za e
              have := any_false hu j z hz
              simp [za, e] at this
          · obtain ⟨y, ht, hy⟩ := h1
            exact Or.inr (Or.inl ⟨k, sl, y, hg, fx, ht, hy, hr⟩)

/-- A core that was added is there under its name and uuid, which no other core had; it has the least place that was
free, the first place coming last; nothing else changed, and if there is a device its superblock names it. -/
theorem add_ok {n : Nat} {s : St} (h : Run n s) (hu : Usable s) (hid : s.pend = .idle) (i : AddIn) (k : Nat)
    (ht : Tells s (add s i) .add (some k) true) :
    (∃ x, s.slots[k]? = some x ∧ x.valid = false) ∧
    (∀ (j : Nat) (z : Slot), s.slots[j]? = some z → z.valid = false → j ≠ 0 → k ≠ 0 ∧ k ≤ j) ∧
    (∀ (j : Nat) (z : Slot), s.slots[j]? = some z → z.added = true → z.name ≠ i.name ∧ z.uuid ≠ i.uuid) ∧
    (∃ y, (add s i).slots[k]? = some y ∧ y.name = i.name ∧ y.uuid = i.uuid ∧ y.added = true ∧ y.opened = true) ∧
    Only s (add s i) k ∧
    (add s i).count = s.count + 1 ∧ (add s i).inactive = s.inactive ∧
    (s.attached = true → (add s i).sb = listed (add s i)) := by
  have g := good h hu
  have g' : G (add s i) := g.add hid
  rcases add_told h hu hid i with ⟨k', x, y, hg, fx, hf, ht', hy, hr, h1, h2⟩ | ⟨k', x, y, _, _, ht', _⟩ | e
  · have e := last_eq (ht.symm.trans ht')
    cases e
    refine ⟨⟨x, hg, fx.valid⟩, ?_, ?_, ⟨y, ?_, hy.name, hy.uuid, hy.added, hy.opened⟩, ⟨?_, ?_⟩, hy.count,
      hr.inactive, ?_⟩
    · intro j z hz zv h0
      refine findFree_least hf j z hz ?_ h0
      rw [(g.slots j z hz).bit]; exact zv
    · intro j z hz za
      exact ⟨h1 j z hz za, h2 j z hz ((g.slots j z hz).val za)⟩
    · rw [hy.slots]
      have : k < s.slots.length := by
        rcases Nat.lt_or_ge k s.slots.length with h1 | h1
        · exact h1
        · rw [List.getElem?_eq_none h1] at hg; cases hg
      simp [this]
    · rw [hy.slots]; simp
    · intro j hj
      rw [hy.slots, List.getElem?_set, if_neg (Ne.symm hj)]
    · intro ha
      refine g'.sb (by rw [hr.attached]; exact ha) (hy.stale ha) (by rw [hr.pend, hid]; rfl)
  · have e := last_eq (ht.symm.trans ht')
    cases e
  · rw [e] at ht
    have e := last_eq ht
    cases e

/-- If adding fails the cache has the cores it had, in the same state, and holds nothing new. Missing: the device,
see `add_error_on_device`. -/
theorem add_error_partial {n : Nat} {s : St} (h : Run n s) (hu : Usable s) (hid : s.pend = .idle) (i : AddIn)
    (k : Option Nat) (ht : Tells s (add s i) .add k false) :
    (∀ (j : Nat) (x y : Slot), s.slots[j]? = some x → (add s i).slots[j]? = some y →
      y = x ∨ (x.valid = false ∧ NoCore x ∧ y.valid = false ∧ y.added = false ∧ NoCore y)) ∧
    listed (add s i) = listed s ∧
    (add s i).count = s.count ∧ (add s i).inactive = s.inactive := by
  have g := good h hu
  have nc : ∀ x, Free x → NoCore x := fun x f => ⟨f.opened, f.priv, f.vopen, f.counters, f.cutoff, f.cleaning⟩
  rcases add_told h hu hid i with ⟨k', x, y, hg, fx, hf, ht', hy, hr, h1, h2⟩ | ⟨k', x, y, hg, fx, ht', hy, hr⟩ | e
  · have e := last_eq (ht.symm.trans ht')
    cases e
  · refine ⟨?_, ?_, hy.count, hr.inactive⟩
    · intro j a b ha hb
      rw [hy.slots] at hb
      rcases get_set hg hb with ⟨e, e2⟩ | ⟨_, e2⟩
      · subst e e2
        rw [hg] at ha; cases ha
        exact Or.inr ⟨fx.valid, nc _ fx, hy.free.valid, hy.free.added, nc _ hy.free⟩
      · rw [ha] at e2; cases e2; exact Or.inl rfl
    · rw [listed_image, listed_image, hy.slots, image_set _ _ _ _ hg]
      rw [fx.meta, hy.free.meta]
  · rw [e]
    refine ⟨?_, rfl, rfl, rfl⟩
    intro j a b ha hb
    have hb' : s.slots[j]? = some b := hb
    rw [ha] at hb'; cases hb'; exact Or.inl rfl

/-- All goes well. -/
def AddIn.fine (i : AddIn) : Prop :=
  i.nameOk = true ∧ i.uuidOk = true ∧ i.volInit = .ok ∧ i.metaOk = true ∧ i.volOpen = true ∧ i.lenOk = true ∧
  i.cleanOk = true ∧ i.cutoffOk = true ∧ i.countersOk = true ∧ i.seqOk = true ∧ i.flush = .ok ∧
  i.frontInit = .ok ∧ i.frontOpen = true

/-- A core of a new name and uuid is added if there is a place and no call fails. -/
theorem add_fine {n : Nat} {s : St} (h : Run n s) (hu : Usable s) (i : AddIn) (hi : i.fine)
    (hn : ∀ sl ∈ s.slots, sl.added = true → sl.name ≠ i.name)
    (hv : ∀ sl ∈ s.slots, sl.valid = true → sl.uuid ≠ i.uuid)
    (hf : ∃ sl ∈ s.slots, sl.valid = false) : ∃ k, Tells s (add s i) .add (some k) true := by
  have g := good h hu
  obtain ⟨sl, hm, hv0⟩ := hf
  obtain ⟨j, hj⟩ := List.getElem?_of_mem hm
  have hb : sl.bit = false := by rw [(g.slots j sl hj).bit]; exact hv0
  have hne := findFree_some hj hb
  obtain ⟨i1, i2, i3, i4, i5, i6, i7, i8, i9, i10, i11, i12, i13⟩ := hi
  unfold CoreMngt.add
  rw [if_neg, if_neg]
  · cases hfr : findFree s.slots with
    | none => exact absurd hfr hne
    | some k =>
      obtain ⟨x, hx⟩ := findFree_lt hfr
      refine ⟨k, ?_⟩
      simp only [hx]
      have hins : (insert s.attached i (Ctx.start s x)).1 = true := by
        cases ha : s.attached <;>
          simp [insert, andThen, stName, stUuid, stVol, stOpen, stLen, stClean, stCutoff, stMark, stSeq, i1, i2, i3, i4,
            i5, i6, i7, i8, i9, i10]
      unfold addAt
      simp only [hins, i11, i12, i13, frontInit, Tells, tell, put]
      by_cases ha : s.attached = true <;> simp [ha]
  · simp only [List.any_eq_true, not_exists, Bool.and_eq_true, beq_iff_eq, not_and]
    exact hv
  · simp only [List.any_eq_true, not_exists, Bool.and_eq_true, beq_iff_eq, not_and]
    exact hn

theorem andThen_true {f g : Ctx → Bool × Ctx} {c : Ctx} (h : (andThen f g c).1 = true) :
    (f c).1 = true ∧ (g (f c).2).1 = true := by
  unfold andThen at h
  by_cases e : (f c).1 = true
  · rw [if_pos e] at h; exact ⟨e, h⟩
  · rw [if_neg e] at h; exact absurd h e

theorem insert_needs {att : Bool} {i : AddIn} {c : Ctx} (h : (insert att i c).1 = true) :
    i.nameOk = true ∧ i.uuidOk = true ∧ i.volInit = .ok ∧ i.metaOk = true ∧ i.volOpen = true ∧ i.lenOk = true ∧
    (att = true → i.cleanOk = true) ∧ i.cutoffOk = true ∧ i.countersOk = true ∧ i.seqOk = true := by
  unfold insert at h
  obtain ⟨h1, h⟩ := andThen_true h
  obtain ⟨h2, h⟩ := andThen_true h
  obtain ⟨h3, h⟩ := andThen_true h
  obtain ⟨h4, h⟩ := andThen_true h
  obtain ⟨h5, h⟩ := andThen_true h
  obtain ⟨h6, h⟩ := andThen_true h
  obtain ⟨h7, h⟩ := andThen_true h
  obtain ⟨h8, h9⟩ := andThen_true h
  refine ⟨?_, ?_, ?_, ?_, ?_, h5, ?_, ?_, ?_, h9⟩
  · cases e : i.nameOk
    · simp [stName, e] at h1
    · rfl
  · cases e : i.uuidOk
    · simp [stUuid, e] at h2
    · rfl
  · by_cases e : i.volInit = .ok
    · exact e
    · simp [stVol, e] at h3
  · cases e : i.metaOk
    · simp [stOpen, e] at h4
    · rfl
  · cases e : i.volOpen
    · simp [stOpen, e] at h4
    · rfl
  · intro ha
    cases e : i.cleanOk
    · simp [stClean, e, ha] at h6
    · rfl
  · cases e : i.cutoffOk
    · simp [stCutoff, e] at h7
    · rfl
  · cases e : i.countersOk
    · simp [stMark, e] at h8
    · rfl

theorem front_needs {f : Vol} {ri : InitR} {ro : Bool} (h : (frontInit f ri ro).1 = true) :
    ri = .ok ∧ ro = true := by
  cases ri <;> cases ro <;> simp [frontInit] at h ⊢

/-- Success is told only if no call failed. -/
theorem add_needs {s : St} {i : AddIn} {k : Option Nat} (ht : Tells s (add s i) .add k true) :
    i.nameOk = true ∧ i.uuidOk = true ∧ i.volInit = .ok ∧ i.metaOk = true ∧ i.volOpen = true ∧ i.lenOk = true ∧
    (s.attached = true → i.cleanOk = true) ∧ i.cutoffOk = true ∧ i.countersOk = true ∧ i.seqOk = true ∧
    (s.attached = true → i.flush = .ok) ∧ i.frontInit = .ok ∧ i.frontOpen = true := by
  unfold Tells add at ht
  split at ht
  · cases (tell_pos ht).2.2
  · split at ht
    · cases (tell_pos ht).2.2
    · split at ht
      · cases (tell_pos ht).2.2
      · split at ht
        · cases (tell_pos ht).2.2
        · rename_i k' _ sl _
          unfold addAt at ht
          simp only at ht
          by_cases e : (insert s.attached i (Ctx.start s sl)).1 = false
          · rw [if_pos e] at ht
            cases (tell_pos (s := s) ht).2.2
          rw [if_neg e] at ht
          have hi := insert_needs (by simpa using e)
          by_cases e2 : s.attached = true ∧ i.flush ≠ .ok
          · rw [if_pos e2] at ht
            simp only [e2.1, if_true, tell, put] at ht
            cases (tell_pos (s := s) ht).2.2
          rw [if_neg e2] at ht
          have hfl : s.attached = true → i.flush = .ok := by
            intro ha
            apply Classical.byContradiction
            intro hne
            exact e2 ⟨ha, hne⟩
          by_cases e3 : (frontInit (insert s.attached i (Ctx.start s sl)).2.slot.front i.frontInit i.frontOpen).1 = true
          · have hf := front_needs e3
            exact ⟨hi.1, hi.2.1, hi.2.2.1, hi.2.2.2.1, hi.2.2.2.2.1, hi.2.2.2.2.2.1, hi.2.2.2.2.2.2.1,
              hi.2.2.2.2.2.2.2.1, hi.2.2.2.2.2.2.2.2.1, hi.2.2.2.2.2.2.2.2.2, hfl, hf.1, hf.2⟩
          · rw [if_neg e3] at ht
            by_cases ha : s.attached = true
            · simp only [ha, if_true, tell, put] at ht
              cases (tell_pos (s := s) ht).2.2
            · have ha' : s.attached = false := by simpa using ha
              simp only [ha', tell, put] at ht
              cases (tell_pos (s := s) ht).2.2

/-! ### Attaching and detaching -/

theorem findIdx_le {α : Type} {l : List α} {p : α → Bool} {k : Nat} (h : l.findIdx? p = some k) :
    ∃ x, l[k]? = some x ∧ p x = true := by
  rw [List.findIdx?_eq_some_iff_getElem] at h
  obtain ⟨hk, hp, _⟩ := h
  exact ⟨l[k], List.getElem?_eq_getElem hk, hp⟩

/-- What an attach does. -/
theorem tryAdd_told {s : St} (i : TryIn) :
    (∃ k, tryAdd s i = tell s .attach k false) ∨
    (∃ k sl, s.slots[k]? = some sl ∧ sl.added = true ∧ sl.name = i.name ∧ sl.uuid = i.uuid ∧ sl.opened = false ∧
      tryAdd s i = tryAt s i k sl) := by
  unfold tryAdd
  cases hf : s.slots.findIdx? (fun sl => sl.added && sl.name == i.name) with
  | none => exact Or.inl ⟨none, rfl⟩
  | some k =>
    obtain ⟨sl, hg, hp⟩ := findIdx_le hf
    simp only [Bool.and_eq_true, beq_iff_eq] at hp
    simp only [hg]
    split
    · exact Or.inl ⟨none, rfl⟩
    · rename_i ho
      split
      · exact Or.inl ⟨none, rfl⟩
      · split
        · exact Or.inl ⟨none, rfl⟩
        · rename_i hu
          exact Or.inr ⟨k, sl, hg, hp.1, hp.2, by simpa using hu, by simpa using ho, rfl⟩

/-- An attached core is open; it was an inactive core of the name and uuid given, and nothing else changed. -/
theorem attach_ok {n : Nat} {s : St} (h : Run n s) (hu : Usable s) (hid : s.pend = .idle) (i : TryIn) (k : Nat)
    (ht : Tells s (tryAdd s i) .attach (some k) true) :
    ∃ x y, s.slots[k]? = some x ∧ (tryAdd s i).slots[k]? = some y ∧ x.name = i.name ∧ x.uuid = i.uuid ∧
      x.added = true ∧ x.opened = false ∧
      y.name = x.name ∧ y.uuid = x.uuid ∧ y.added = true ∧ y.opened = true ∧ y.data = x.data ∧ Ready y ∧
      Only s (tryAdd s i) k ∧
      (tryAdd s i).count = s.count ∧ (tryAdd s i).inactive = s.inactive - 1 := by
  have g := good h hu
  have g' : G (tryAdd s i) := g.tryAdd hid
  rcases tryAdd_told (s := s) i with ⟨k', e⟩ | ⟨k', sl, hg, ha, hn, huu, ho, e⟩
  · rw [e] at ht
    cases last_eq ht
  · rw [e] at ht g' ⊢
    have hx := g.slots k' sl hg
    unfold tryAt at ht g' ⊢
    have hv := hx.volA (Or.inl ha)
    have hvo : sl.vol.opened = false := by rw [hx.volO, ho]
    have e1 : ¬sl.vol.typ = false := by rw [hv.2.1]; simp
    rw [if_neg e1] at ht g' ⊢
    by_cases e2 : (sl.vol.opened || !i.volOpen) = true
    · rw [if_pos e2] at ht; cases last_eq ht
    rw [if_neg e2] at ht g' ⊢
    by_cases e3 : (!i.lenOk) = true
    · rw [if_pos e3] at ht; cases last_eq ht
    rw [if_neg e3] at ht g' ⊢
    simp only at ht g' ⊢
    have hk : k' < s.slots.length := by
      rcases Nat.lt_or_ge k' s.slots.length with h1 | h1
      · exact h1
      · rw [List.getElem?_eq_none h1] at hg; cases hg
    have hl := last_eq ht
    have hkk : k' = k := by simp only [Prod.mk.injEq, Option.some.injEq] at hl; exact hl.2.1
    have hf : (frontInit sl.front i.frontInit i.frontOpen).1 = true := by
      simp only [Prod.mk.injEq] at hl; exact hl.2.2
    subst hkk
    have hfr := frontInit_ok hf
    have hget : (s.slots.set k' { sl with
        vol := { sl.vol with opened := true }, opened := true,
        front := (frontInit sl.front i.frontInit i.frontOpen).2 })[k']? =
        some { sl with vol := { sl.vol with opened := true }, opened := true,
                       front := (frontInit sl.front i.frontInit i.frontOpen).2 } := by simp [hk]
    refine ⟨sl, { sl with vol := { sl.vol with opened := true }, opened := true,
                          front := (frontInit sl.front i.frontInit i.frontOpen).2 }, hg, hget, hn, huu, ha, ho, rfl, rfl,
      ha, rfl, rfl, ⟨hx.val ha, ?_, ?_, hfr, ?_, ?_⟩, ⟨?_, ?_⟩, rfl, rfl⟩
    · show sl.bit = true
      rw [hx.bit]; exact hx.val ha
    · show (⟨sl.vol.typ, sl.vol.priv, true⟩ : Vol) = _
      rw [hv.2.1, hv.2.2]
    · show sl.counters = true
      rw [hx.cnt]; exact ha
    · show sl.cutoff = true
      rw [hx.cut]; exact ha
    · show (s.slots.set _ _).length = _
      simp
    · intro j hj
      show (s.slots.set _ _)[j]? = _
      rw [List.getElem?_set, if_neg (Ne.symm hj)]

/-- Success is told only if no call failed. -/
theorem attach_needs {s : St} {i : TryIn} {k : Option Nat} (ht : Tells s (tryAdd s i) .attach k true) :
    i.typeOk = true ∧ i.volOpen = true ∧ i.lenOk = true ∧ i.frontInit = .ok ∧ i.frontOpen = true := by
  unfold Tells tryAdd at ht
  split at ht
  · cases (tell_pos ht).2.2
  · split at ht
    · cases (tell_pos ht).2.2
    · rename_i sl _
      split at ht
      · cases (tell_pos ht).2.2
      · split at ht
        · cases (tell_pos ht).2.2
        · rename_i hty
          split at ht
          · cases (tell_pos ht).2.2
          · unfold tryAt at ht
            split at ht
            · exact absurd ht last_ne
            · split at ht
              · cases (tell_pos ht).2.2
              · rename_i ho
                split at ht
                · cases (tell_pos ht).2.2
                · rename_i hle
                  simp only at ht
                  have hl := (tell_pos (s := s) ht).2.2
                  have hf := front_needs hl
                  refine ⟨by simpa using hty, ?_, by simpa using hle, hf.1, hf.2⟩
                  cases e : i.volOpen
                  · simp [e] at ho
                  · rfl

/-- A failed attach changes nothing. Missing: it failed in its last step, see `attach_error_opens`. -/
theorem attach_error_partial {n : Nat} {s : St} (h : Run n s) (hu : Usable s) (i : TryIn)
    (k : Option Nat) (ht : Tells s (tryAdd s i) .attach k false) (hfe : (tryAdd s i).fe = false) :
    tryAdd s i = tell s .attach k false := by
  have g := good h hu
  rcases tryAdd_told (s := s) i with ⟨k', e⟩ | ⟨k', sl, hg, ha, hn, huu, ho, e⟩
  · rw [e] at ht ⊢
    cases last_eq ht
    rfl
  · rw [e] at ht hfe ⊢
    have hx := g.slots k' sl hg
    unfold tryAt at ht hfe ⊢
    have e1 : ¬sl.vol.typ = false := by rw [(hx.volA (Or.inl ha)).2.1]; simp
    rw [if_neg e1] at ht hfe ⊢
    by_cases e2 : (sl.vol.opened || !i.volOpen) = true
    · rw [if_pos e2] at ht ⊢; cases last_eq ht; rfl
    rw [if_neg e2] at ht hfe ⊢
    by_cases e3 : (!i.lenOk) = true
    · rw [if_pos e3] at ht ⊢; cases last_eq ht; rfl
    rw [if_neg e3] at ht hfe
    simp only at ht hfe
    have hl := last_eq ht
    simp only [Prod.mk.injEq] at hl
    have : (s.fe || !(frontInit sl.front i.frontInit i.frontOpen).1) = false := hfe
    rw [hl.2.2] at this
    simp at this

/-- An inactive core is attached if no call fails. -/
theorem attach_fine {n : Nat} {s : St} (h : Run n s) (hu : Usable s) (k : Nat) (sl : Slot)
    (hg : s.slots[k]? = some sl) (ha : sl.added = true) (ho : sl.opened = false) (i : TryIn)
    (hn : i.name = sl.name) (huu : i.uuid = sl.uuid) (h1 : i.typeOk = true) (h2 : i.volOpen = true)
    (h3 : i.lenOk = true) (h4 : i.frontInit = .ok) (h5 : i.frontOpen = true) :
    Tells s (tryAdd s i) .attach (some k) true := by
  have g := good h hu
  unfold tryAdd
  cases hf : s.slots.findIdx? (fun sl => sl.added && sl.name == i.name) with
  | none =>
    rw [List.findIdx?_eq_none_iff] at hf
    have := hf sl (List.mem_of_getElem? hg)
    simp [ha, hn] at this
  | some j =>
    obtain ⟨x, hj, hp⟩ := findIdx_le hf
    simp only [Bool.and_eq_true, beq_iff_eq] at hp
    have e : j = k := g.names j k x sl hj hg hp.1 ha (by rw [hp.2, hn])
    subst e
    have hx := g.slots j sl hg
    have hv := hx.volA (Or.inl ha)
    have hvo : sl.vol.opened = false := by rw [hx.volO, ho]
    simp [hg, ho, h1, huu, tryAt, hv.2.1, hvo, h2, h3, h4, h5, frontInit, Tells, tell, lessInactive]

/-- A detached core is still there, inactive, with its name, uuid and the data the cache has of it; its volumes
are closed, and nothing else changed. -/
theorem detach_ok {n : Nat} {s : St} (h : Run n s) (hu : Usable s) (k : Nat) (sl : Slot)
    (hp : s.pend = .dtClose k) (hg : s.slots[k]? = some sl) (hi : sl.io = 0) :
    Tells s (dtClose s k sl) .detach (some k) true ∧ (dtClose s k sl).pend = .idle ∧
    Only s (dtClose s k sl) k ∧ (dtClose s k sl).inactive = s.inactive + 1 ∧
    (dtClose s k sl).count = s.count ∧
    ∃ y, (dtClose s k sl).slots[k]? = some y ∧ y.name = sl.name ∧ y.uuid = sl.uuid ∧ y.valid = true ∧
      y.added = true ∧ y.opened = false ∧ y.data = sl.data ∧ y.vol.opened = false ∧ NoFront y := by
  have g := good h hu
  have hx := g.slots k sl hg
  rw [hp] at hx
  have hd := hx.dtp (by simp [phase])
  have hk : k < s.slots.length := by
    rcases Nat.lt_or_ge k s.slots.length with h1 | h1
    · exact h1
    · rw [List.getElem?_eq_none h1] at hg; cases hg
  refine ⟨rfl, rfl, ⟨?_, ?_⟩, rfl, rfl, { sl with front := sl.front.close.deinit, vol := sl.vol.close, opened := false }, ?_,
    rfl, rfl, hx.val hd.1, hd.1, rfl, rfl, rfl, rfl, rfl, hi⟩
  · show (s.slots.set _ _).length = _
    simp
  · intro j hj
    show (s.slots.set _ _)[j]? = _
    rw [List.getElem?_set, if_neg (Ne.symm hj)]
  · show (s.slots.set _ _)[k]? = _
    simp [hk]

/-- Detaching refuses a core that is not open, and changes nothing then; else it waits for the requests of the core. -/
theorem detach_start {n : Nat} {s : St} (h : Run n s) (hu : Usable s) (hfe : s.fe = false) (k : Nat)
    (sl : Slot) (hg : s.slots[k]? = some sl) :
    (sl.opened = false → dtStart s k sl = tell s .detach (some k) false) ∧
    (sl.opened = true → dtStart s k sl = { s with pend := .dtClose k }) := by
  have g := good h hu
  have hx := g.slots k sl hg
  refine ⟨?_, ?_⟩
  · intro ho; unfold dtStart; rw [if_pos ho]
  · intro ho
    unfold dtStart
    rw [if_neg (by rw [ho]; simp), if_neg (by rw [hx.frA ho hfe]; simp)]

/-! ### Removing -/

theorem add_tells {n : Nat} {s : St} (h : Run n s) (hu : Usable s) (hid : s.pend = .idle) (i : AddIn) :
    ∃ k b, (add s i).told = s.told ++ [(.add, k, b)] := by
  rcases add_told h hu hid i with ⟨k, _, _, _, _, _, ht, _⟩ | ⟨k, _, _, _, _, ht, _⟩ | e
  · exact ⟨_, _, ht⟩
  · exact ⟨_, _, ht⟩
  · rw [e]; exact ⟨_, _, rfl⟩

theorem tryAdd_tells {s : St} (i : TryIn) :
    (tryAdd s i).told = s.told ∨ ∃ k b, (tryAdd s i).told = s.told ++ [(.attach, k, b)] := by
  rcases tryAdd_told (s := s) i with ⟨k', e⟩ | ⟨k', sl, _, _, _, _, _, e⟩
  · rw [e]; exact Or.inr ⟨_, _, rfl⟩
  · rw [e]
    unfold tryAt
    split
    · exact Or.inl rfl
    · split
      · exact Or.inr ⟨_, _, rfl⟩
      · split
        · exact Or.inr ⟨_, _, rfl⟩
        · exact Or.inr ⟨_, _, rfl⟩

theorem fromCache_told (s : St) (k : Nat) (sl : Slot) : (fromCache s k sl).told = s.told := by
  unfold fromCache; cases sl.opened <;> rfl

theorem fromCache_attached (s : St) (k : Nat) (sl : Slot) : (fromCache s k sl).attached = s.attached := by
  unfold fromCache; cases sl.opened <;> rfl

theorem fromCache_slots (s : St) (k : Nat) (sl : Slot) :
    (fromCache s k sl).slots = s.slots.set k sl.fromCache := by
  unfold fromCache; cases sl.opened <;> rfl

theorem stopNext_told (s : St) (j no : Nat) : (stopNext s j no).told = s.told := by
  unfold stopNext
  split
  · rfl
  · split
    · rfl
    · split
      · rfl
      · simp only
        split
        · exact fromCache_told ..
        · exact fromCache_told ..

/-- Which steps tell of a removal, and what they are. -/
theorem remove_tells {n : Nat} {s s' : St} (h : Run n s) (hu : Usable s) (st : Step s s') (k : Nat) (b : Bool)
    (ht : Tells s s' .remove (some k) b) :
    (b = false ∧ s.attached = true ∧ s.pend = .idle ∧ ∃ sl, s.slots[k]? = some sl ∧ sl.added = true ∧
      s' = tell { s with slots := s.slots.set k { sl with data := false } } .remove (some k) false) ∨
    (b = true ∧ s.attached = false ∧ s.pend = .rmBody k ∧ ∃ sl, s.slots[k]? = some sl ∧ sl.opened = false ∧
      s' = rmBody s k sl) ∨
    (b = true ∧ s.attached = false ∧ s.pend = .rmClose k ∧ ∃ sl, s.slots[k]? = some sl ∧ sl.io = 0 ∧
      s' = rmClose s k sl) ∨
    (s.attached = true ∨ s.attached = false) ∧ s.pend = .rmFlush k ∧
      ∃ r, (b = true ↔ r = .ok) ∧ s' = rmFlush s k r := by
  unfold Tells at ht
  cases st with
  | add i hp =>
    obtain ⟨k', b', e⟩ := add_tells h hu hp i
    rw [e] at ht
    cases (tell_pos ht).1
  | tryAdd i hp =>
    rcases tryAdd_tells (s := s) i with e | ⟨k', b', e⟩
    · rw [e] at ht; exact absurd ht last_ne
    · rw [e] at ht; cases (tell_pos ht).1
  | rmStart k' sl e hp hg ha =>
    unfold rmStart at ht ⊢
    by_cases hat : s.attached = true
    · simp only [hat, if_true, Bool.true_and] at ht ⊢
      cases e
      · exact absurd ht last_ne
      · simp only [if_true] at ht ⊢
        obtain ⟨-, e1, e2⟩ := tell_pos ht
        cases e1
        exact Or.inl ⟨e2.symm, trivial, hp, sl, hg, ha, rfl⟩
    · have hat' : s.attached = false := by simpa using hat
      simp only [hat', Bool.false_and] at ht
      exact absurd ht last_ne
  | rmBody k' sl hp hg =>
    have ht0 := ht
    unfold rmBody at ht
    split at ht
    · exact absurd ht last_ne
    · simp only at ht
      cases ho : sl.opened
      · simp only [ho] at ht
        unfold rmEnd at ht
        simp only [fromCache_attached] at ht
        cases hat : s.attached
        · simp only [hat, tell, fromCache_told] at ht
          obtain ⟨-, e1, e2⟩ := tell_pos (s := s) ht
          cases e1
          exact Or.inr (Or.inl ⟨e2.symm, rfl, hp, sl, hg, ho, rfl⟩)
        · simp only [hat, if_true, fromCache_told] at ht
          exact absurd ht last_ne
      · simp only [ho, if_true, fromCache_told] at ht
        exact absurd ht last_ne
  | rmClose k' sl hp hg hi =>
    have ht0 := ht
    unfold rmClose rmEnd at ht
    cases hat : s.attached
    · simp only [hat, tell] at ht
      obtain ⟨-, e1, e2⟩ := tell_pos (s := s) ht
      cases e1
      exact Or.inr (Or.inr (Or.inl ⟨e2.symm, rfl, hp, sl, hg, hi, rfl⟩))
    · simp only [hat, if_true] at ht
      exact absurd ht last_ne
  | rmFlush k' r hp =>
    obtain ⟨-, e1, e2⟩ := tell_pos (s := s) ht
    cases e1
    refine Or.inr (Or.inr (Or.inr ⟨?_, hp, r, ?_, rfl⟩))
    · cases s.attached
      · exact Or.inr rfl
      · exact Or.inl rfl
    · rw [← e2]; simp
  | dtStart k' sl hp hg ha =>
    unfold dtStart at ht
    split at ht
    · cases (tell_pos ht).1
    · split at ht
      · exact absurd ht last_ne
      · exact absurd ht last_ne
  | dtClose k' sl hp hg hi => cases (tell_pos (s := s) ht).1
  | stopStart hp => exact absurd ht last_ne
  | stopNext j no hp => rw [stopNext_told] at ht; exact absurd ht last_ne
  | stopClose j no sl hp hg hi => exact absurd ht last_ne
  | attachCache hp ha => exact absurd ht last_ne
  | detachCache hp ha => exact absurd ht last_ne
  | load oc ins img hp h0 ha hl hn hu =>
    unfold load at ht
    simp only at ht
    split at ht
    · cases (tell_pos (s := s) ht).1
    · cases (tell_pos (s := s) ht).1
  | ioStart k' sl hg ho hf => exact absurd ht last_ne
  | ioWork k' sl d hg hi => exact absurd ht last_ne
  | ioEnd k' sl hg hi => exact absurd ht last_ne
  | clean k' sl hg => exact absurd ht last_ne

theorem get_of_set {l : List Slot} {k : Nat} {x y z : Slot} (h : l[k]? = some x)
    (hj : (l.set k y)[k]? = some z) : z = y := by
  rcases get_set h hj with ⟨_, e⟩ | ⟨e, _⟩
  · exact e
  · exact absurd rfl e

theorem deinit_valid (sl : Slot) : sl.deinit.valid = sl.valid := by
  obtain ⟨⟩ := sl
  rename_i o hv _ _ _ _ _ _ _
  cases o <;> cases hv <;> rfl

/-- When a removal is told to have gone well the place is free: nothing is held, and if there is a device its
superblock names the cores that are left. Missing: requests under way when the removal started, and the front volume
of a core that a load left inactive; see `remove_busy_uses_freed`, `inactive_front_left`. -/
theorem removed_partial {n : Nat} {s s' : St} (h : Run n s) (hu : Usable s) (st : Step s s') (k : Nat)
    (ht : Tells s s' .remove (some k) true) :
    s'.pend = .idle ∧ (s'.attached = true → s'.sb = listed s') ∧
    ∀ y, s'.slots[k]? = some y → y.valid = false ∧ y.added = false ∧ NoCore y ∧
      (s'.li = false → NoFront y) ∧ (s'.busy = false → s'.li = false → y.data = false) := by
  have g := good h hu
  have key : G s' ∧ s'.pend = .idle ∧ (s'.attached = true → s'.stale = false) ∧
      ∀ y, s'.slots[k]? = some y → y.valid = false := by
    rcases remove_tells h hu st k true ht with ⟨e, _⟩ | ⟨_, hat, hp, sl, hg, ho, e⟩ | ⟨_, hat, hp, sl, hg, hi, e⟩ |
      ⟨_, hp, r, hr, e⟩
    · cases e
    · subst e
      have hgd := g.rmBody hp hg
      have hG : G (rmBody s k sl) := by
        rcases hgd with q | q
        · exact q
        · exfalso
          unfold rmBody at q
          rw [if_neg (by rw [ho]; simp)] at q
          have := q.1
          simp only [ho, rmEnd, fromCache_attached, hat, tell] at this
          cases this
      refine ⟨hG, ?_, ?_, ?_⟩
      · unfold rmBody
        rw [if_neg (by rw [ho]; simp)]
        simp only [ho, rmEnd, fromCache_attached, hat, tell]
        rfl
      · unfold rmBody
        rw [if_neg (by rw [ho]; simp)]
        simp only [ho, rmEnd, fromCache_attached, hat, tell]
        intro c
        simp [fromCache_attached, hat] at c
      · unfold rmBody
        rw [if_neg (by rw [ho]; simp)]
        simp only [ho, rmEnd, fromCache_attached, hat, tell, fromCache_slots, List.set_set]
        intro y hy
        have e := get_of_set hg (by simpa [fromCache_slots] using hy)
        rw [e]
        unfold Slot.deinit Slot.fromCache Slot.fromMeta
        cases sl.hasVol <;> simp [ho]
    · subst e
      have hx := g.slots k sl hg
      rw [hp] at hx
      have hcl : SOk s.attached s.fe s.li s.busy false .closing sl := by simpa [phase, stopping] using hx
      have hv := closing_valid hcl
      have hG : G (rmClose s k sl) := g.rmClose hp hg hi
      refine ⟨hG, ?_, ?_, ?_⟩
      · unfold rmClose rmEnd
        simp only [hat, tell]; rfl
      · unfold rmClose rmEnd
        simp only [hat, tell]
        intro c
        simp [hat] at c
      · unfold rmClose rmEnd
        simp only [hat, tell]
        intro y hy
        have e := get_of_set hg (by simpa using hy)
        rw [e]
        rw [deinit_valid]; exact hv
    · subst e
      have hrok := hr.mp rfl
      subst hrok
      refine ⟨g.rmFlush hp, rfl, fun _ => rfl, ?_⟩
      intro y hy
      have hx := g.slots k y hy
      rw [hp] at hx
      exact (hx.gon (by simp [phase])).2.1
  obtain ⟨g', hid, hst, hv⟩ := key
  refine ⟨hid, fun ha => g'.sb ha (hst ha) (by rw [hid]; rfl), ?_⟩
  intro y hy
  have hx := g'.slots k y hy
  have hval := hv y hy
  have ha : y.added = false := by
    cases e : y.added
    · rfl
    · rw [hx.val e] at hval; cases hval
  have hn := noCore_of g' hy ha (by rintro (c | ⟨_, c⟩) <;> rw [hid] at c <;> cases c)
  refine ⟨hval, ha, hn.1, hn.2, ?_⟩
  intro hb hl
  cases e : y.data
  · rfl
  · rcases hx.dat e (Or.inl hval) with c | c
    · rw [hb] at c; cases c
    · rw [hl] at c; cases c

/-- A removal that is told to have failed was of a cache with a device. Either the core is left as it was but that
the data the cache had of it is gone (`remove_error_drops_data`), or it is removed nevertheless
(`remove_error_removed`). -/
theorem remove_error_partial {n : Nat} {s s' : St} (h : Run n s) (hu : Usable s) (st : Step s s') (k : Nat)
    (ht : Tells s s' .remove (some k) false) :
    s'.pend = .idle ∧ Only s s' k ∧ s'.count = s.count ∧ s'.inactive = s.inactive ∧
    ((listed s' = listed s ∧ s'.sb = s.sb ∧ ∃ x y, s.slots[k]? = some x ∧ s'.slots[k]? = some y ∧ x.added = true ∧
        y = { x with data := false }) ∨
      (s'.slots = s.slots ∧ s.pend = .rmFlush k ∧
        ∀ y, s'.slots[k]? = some y → y.valid = false ∧ y.added = false)) := by
  have g := good h hu
  rcases remove_tells h hu st k false ht with ⟨_, hat, hp, sl, hg, ha, e⟩ | ⟨e, _⟩ | ⟨e, _⟩ |
    ⟨_, hp, r, hr, e⟩
  · subst e
    have hk : k < s.slots.length := by
      rcases Nat.lt_or_ge k s.slots.length with h1 | h1
      · exact h1
      · rw [List.getElem?_eq_none h1] at hg; cases hg
    refine ⟨hp, ⟨?_, ?_⟩, rfl, rfl, Or.inl ⟨?_, rfl, sl, { sl with data := false }, hg, ?_, ha, rfl⟩⟩
    · show (s.slots.set _ _).length = _
      simp
    · intro j hj
      show (s.slots.set _ _)[j]? = _
      rw [List.getElem?_set, if_neg (Ne.symm hj)]
    · rw [listed_image, listed_image]
      exact image_set _ _ _ _ hg (by rfl)
    · show (s.slots.set _ _)[k]? = _
      simp [hk]
  · cases e
  · cases e
  · subst e
    refine ⟨rfl, ⟨rfl, fun _ _ => rfl⟩, rfl, rfl, Or.inr ⟨rfl, hp, ?_⟩⟩
    intro y hy
    have hx := g.slots k y hy
    rw [hp] at hx
    have := hx.gon (by simp [phase])
    exact ⟨this.2.1, this.1⟩

/-! ### Operations end -/

/-- The place an operation is at. -/
def Pend.at : Pend → Option Nat
  | .rmBody k | .rmClose k | .dtClose k | .stopClose k _ => some k
  | _ => none

/-- How much is left to do. -/
def rank (s : St) : Nat :=
  match s.pend with
  | .rmBody _ => 3
  | .rmClose _ => 2
  | .rmFlush _ => 1
  | .dtClose _ => 1
  | .stop j _ => 2 * (s.slots.length - j) + 1
  | .stopClose j _ => 2 * (s.slots.length - j)
  | _ => 0

/-- An operation on a core is at a place the cache has. -/
def Has (s : St) : Prop := ∀ k, s.pend.at = some k → k < s.slots.length

theorem Has.none {s : St} (h : s.pend.at = none) : Has s := by
  intro k hk; rw [h] at hk; cases hk

theorem get_lt {l : List Slot} {k : Nat} {x : Slot} (h : l[k]? = some x) : k < l.length := by
  rcases Nat.lt_or_ge k l.length with h1 | h1
  · exact h1
  · rw [List.getElem?_eq_none h1] at h; cases h

theorem fromCache_len (s : St) (k : Nat) (sl : Slot) : (fromCache s k sl).slots.length = s.slots.length := by
  rw [fromCache_slots]; simp

theorem addAt_pend (s : St) (i : AddIn) (k : Nat) (sl : Slot) : (addAt s i k sl).pend = s.pend := by
  unfold addAt
  simp only
  split
  · rfl
  · split
    · by_cases ha : s.attached = true <;> simp [tell, put, ha]
    · split
      · by_cases ha : s.attached = true <;> simp [tell, put, ha]
      · by_cases ha : s.attached = true <;> simp [tell, put, ha]

theorem add_pend (s : St) (i : AddIn) : (add s i).pend = s.pend := by
  unfold add
  split
  · rfl
  · split
    · rfl
    · split
      · rfl
      · split
        · rfl
        · exact addAt_pend ..

theorem tryAdd_at (s : St) (i : TryIn) (h : s.pend.at = none) : (tryAdd s i).pend.at = none := by
  rcases tryAdd_told (s := s) i with ⟨k', e⟩ | ⟨k', sl, _, _, _, _, _, e⟩
  · rw [e]; exact h
  · rw [e]
    unfold tryAt
    split
    · rfl
    · split
      · exact h
      · split
        · exact h
        · exact h

theorem has_step {s s' : St} (hh : Has s) (st : Step s s') : Has s' := by
  cases st with
  | add i hp => exact Has.none (by rw [add_pend, hp]; rfl)
  | tryAdd i hp => exact Has.none (tryAdd_at s i (by rw [hp]; rfl))
  | rmStart k sl e hp hg ha =>
    intro j hj
    have hk := get_lt hg
    unfold rmStart at hj ⊢
    by_cases hat : s.attached = true
    · cases e
      · simp [hat, Pend.at] at hj ⊢; omega
      · simp [hat, tell, hp, Pend.at] at hj
    · simp [hat, Pend.at] at hj ⊢; omega
  | rmBody k sl hp hg =>
    intro j hj
    have hk := get_lt hg
    unfold rmBody at hj ⊢
    split at hj
    · cases hj
    · rename_i e
      rw [if_neg e]
      simp only at hj ⊢
      cases ho : sl.opened
      · simp only [ho] at hj
        unfold rmEnd at hj
        simp only [fromCache_attached] at hj
        cases hat : s.attached
        · simp [hat, tell, Pend.at] at hj
        · simp [hat, Pend.at] at hj
      · simp [ho, Pend.at] at hj ⊢
        rw [fromCache_len]
        show j < s.slots.length
        omega
  | rmClose k sl hp hg hi =>
    refine Has.none ?_
    unfold rmClose rmEnd
    split <;> rfl
  | rmFlush k r hp => exact Has.none rfl
  | dtStart k sl hp hg ha =>
    intro j hj
    have hk := get_lt hg
    unfold dtStart at hj ⊢
    split at hj
    · have : s.pend.at = some j := hj
      rw [hp] at this; cases this
    · rename_i e
      rw [if_neg e]
      split at hj
      · cases hj
      · rename_i e2
        rw [if_neg e2]
        simp [Pend.at] at hj ⊢
        omega
  | dtClose k sl hp hg hi => exact Has.none rfl
  | stopStart hp => exact Has.none rfl
  | stopNext j no hp =>
    intro i hi
    unfold stopNext at hi ⊢
    cases hg : s.slots[j]? with
    | none => simp [hg, Pend.at] at hi
    | some sl =>
      have hk := get_lt hg
      simp only [hg] at hi ⊢
      split at hi
      · simp [Pend.at] at hi
      · rename_i e
        rw [if_neg e]
        split at hi
        · simp [Pend.at] at hi
        · rename_i e2
          rw [if_neg e2]
          cases ho : sl.opened
          · simp only [ho] at hi
            unfold stopAfter at hi
            by_cases e3 : no = 1 <;> simp [e3, Pend.at] at hi
          · simp [ho, Pend.at] at hi ⊢
            rw [fromCache_len]
            show i < s.slots.length
            omega
  | stopClose j no sl hp hg hi =>
    refine Has.none ?_
    unfold stopClose stopAfter
    by_cases e3 : no = 1 <;> simp [e3, Pend.at]
  | attachCache hp ha => exact Has.none (by unfold attachCache; rw [hp]; rfl)
  | detachCache hp ha => exact Has.none (by unfold detachCache; rw [hp]; rfl)
  | load oc ins img hp h0 ha hl hn hu =>
    refine Has.none ?_
    unfold load
    simp only
    split
    · show s.pend.at = none
      rw [hp]; rfl
    · rfl
  | ioStart k sl hg ho hf => intro j hj; have := hh j hj; simpa [ioStart] using this
  | ioWork k sl d hg hi => intro j hj; have := hh j hj; simpa [ioWork] using this
  | ioEnd k sl hg hi => intro j hj; have := hh j hj; simpa [ioEnd] using this
  | clean k sl hg => intro j hj; have := hh j hj; simpa [clean] using this

theorem has_run {n : Nat} {s : St} (h : Run n s) : Has s :=
  Reach.inv (P := Has) (fun _ e => by rw [e]; exact Has.none rfl) (fun _ _ hi st => has_step hi st) s h

/-- An operation under way goes on once the requests are put, and there is only so much to do: a removal, a detach or a
stop ends. Missing: after an attach that failed in its last step, see `attach_error_crash`. -/
theorem ends_partial {n : Nat} {s : St} (h : Run n s) (hu : Usable s) (hfe : s.fe = false)
    (hp : s.pend ≠ .idle) (hst : s.pend ≠ .stopped) (hd : s.pend ≠ .dead)
    (hio : ∀ sl ∈ s.slots, sl.io = 0) : ∃ s', Step s s' ∧ rank s' < rank s := by
  have g := good h hu
  have hh := has_run h
  cases hpe : s.pend with
  | idle => exact absurd hpe hp
  | stopped => exact absurd hpe hst
  | failed => exact absurd hpe hu.1
  | dead => exact absurd hpe hd
  | rmBody k =>
    have hk := hh k (by rw [hpe]; rfl)
    have hg := List.getElem?_eq_getElem hk
    refine ⟨_, Step.rmBody s k _ hpe hg, ?_⟩
    unfold rank
    rw [hpe]
    generalize s.slots[k] = sl at hg
    have hx := g.slots k sl hg
    unfold rmBody
    by_cases e : sl.opened = true ∧ sl.front.typ = false
    · rw [if_pos e]; simp
    · rw [if_neg e]
      cases ho : sl.opened
      · simp only [rmEnd, fromCache_attached]
        cases hat : s.attached <;> simp [tell]
      · simp
  | rmClose k =>
    have hk := hh k (by rw [hpe]; rfl)
    have hg := List.getElem?_eq_getElem hk
    refine ⟨_, Step.rmClose s k _ hpe hg (hio _ (List.getElem_mem hk)), ?_⟩
    unfold rank rmClose rmEnd
    rw [hpe]
    cases hat : s.attached <;> simp [tell]
  | rmFlush k =>
    refine ⟨_, Step.rmFlush s k .ok hpe, ?_⟩
    unfold rank rmFlush
    rw [hpe]
    simp [tell]
  | dtClose k =>
    have hk := hh k (by rw [hpe]; rfl)
    have hg := List.getElem?_eq_getElem hk
    refine ⟨_, Step.dtClose s k _ hpe hg (hio _ (List.getElem_mem hk)), ?_⟩
    unfold rank dtClose
    rw [hpe]
    simp [tell]
  | stop j no =>
    refine ⟨_, Step.stopNext s j no hpe, ?_⟩
    unfold rank
    rw [hpe]
    unfold stopNext
    cases hg : s.slots[j]? with
    | none => simp
    | some sl =>
      have hk := get_lt hg
      simp only
      by_cases e : sl.added = false
      · rw [if_pos e]; simp; omega
      · rw [if_neg e]
        by_cases e2 : sl.opened = true ∧ sl.front.typ = false
        · rw [if_pos e2]; simp
        · rw [if_neg e2]
          cases ho : sl.opened
          · simp only [stopAfter]
            by_cases e3 : no = 1
            · simp [e3]
            · simp only [e3]
              simp [fromCache_len]
              omega
          · simp [fromCache_len]
  | stopClose j no =>
    have hk := hh j (by rw [hpe]; rfl)
    have hg := List.getElem?_eq_getElem hk
    refine ⟨_, Step.stopClose s j no _ hpe hg (hio _ (List.getElem_mem hk)), ?_⟩
    unfold rank stopClose stopAfter
    rw [hpe]
    by_cases e3 : no = 1
    · simp [e3]; omega
    · simp [e3]; omega

/-! ### Loading -/

/-- How a core of the superblock is after a load. -/
theorem loadAll_get {oc : Bool} {ins : Nat → LoadIn} : ∀ (img : List (Option (Nat × Nat))) (b : Nat),
    (loadAll oc ins b img).2.2 = true → ∀ (k : Nat) (m : Option (Nat × Nat)), img[k]? = some m →
    (m = none ∧ (loadAll oc ins b img).1[k]? = some Slot.empty) ∨
    ∃ n u, m = some (n, u) ∧ (loadAll oc ins b img).1[k]? =
      some (loaded n u ((ins (b + k)).pool || (oc && (ins (b + k)).volOpen)))
  | [], _ => by intro _ k m hk; cases hk
  | x :: xs, b => by
    intro h k m hk
    unfold loadAll at h ⊢
    by_cases e : x = none
    · rw [if_pos e] at h ⊢
      simp only at h ⊢
      cases k with
      | zero =>
        left
        have : x = m := Option.some.inj hk
        rw [← this, e]
        exact ⟨rfl, rfl⟩
      | succ k =>
        have := loadAll_get xs (b + 1) h k m hk
        rw [Nat.add_assoc, Nat.add_comm 1 k] at this
        exact this
    · rw [if_neg e] at h ⊢
      simp only at h ⊢
      obtain ⟨⟨n, u⟩, rfl⟩ : ∃ p, x = some p := by
        cases x with
        | none => exact absurd rfl e
        | some p => exact ⟨p, rfl⟩
      by_cases e2 : (loadOne oc (ins b) (Slot.ofMeta (some (n, u)))).2 = .err
      · rw [if_pos e2] at h; cases h
      rw [if_neg e2] at h ⊢
      obtain ⟨o, h1, h2, h3⟩ := loadOne_ok e2
      cases k with
      | zero =>
        right
        have : some (n, u) = m := Option.some.inj hk
        rw [← this]
        refine ⟨n, u, rfl, ?_⟩
        rw [h3] at h1
        simp only [List.getElem?_cons_zero, Nat.add_zero]
        rw [h1]
      | succ k =>
        have := loadAll_get xs (b + 1) h k m hk
        rw [Nat.add_assoc, Nat.add_comm 1 k] at this
        exact this

theorem load_eq_ok {s : St} {oc : Bool} {ins : Nat → LoadIn} {img : List (Option (Nat × Nat))}
    (ht : Tells s (load s oc ins img) .load none true) : (loadAll oc ins 0 img).2.2 = true := by
  unfold load at ht
  simp only at ht
  split at ht
  · assumption
  · cases (tell_pos (s := s) ht).2.2

/-- After a load that went well the cache has the cores of the superblock, each under its place, name and uuid; a core
is open exactly if its volume was in the pool of cores or could be opened, when asked to. -/
theorem load_ok {s : St} {oc : Bool} {ins : Nat → LoadIn} {img : List (Option (Nat × Nat))}
    (ht : Tells s (load s oc ins img) .load none true) :
    listed (load s oc ins img) = img ∧ (load s oc ins img).sb = img ∧ (load s oc ins img).attached = true ∧
    ∀ (k : Nat) (n u : Nat), img[k]? = some (some (n, u)) → ∃ sl, (load s oc ins img).slots[k]? = some sl ∧
      sl.added = true ∧ sl.name = n ∧ sl.uuid = u ∧ sl.valid = true ∧ sl.cleaning = true ∧ sl.counters = true ∧
      sl.cutoff = true ∧ (sl.opened = true ↔ (ins k).pool = true ∨ (oc = true ∧ (ins k).volOpen = true)) := by
  have e := load_eq_ok ht
  unfold load
  simp only [e, if_true]
  refine ⟨loads_image (loadAll_ok img 0 e).1, rfl, rfl, ?_⟩
  intro k n u hk
  rcases loadAll_get img 0 e k _ hk with ⟨h, _⟩ | ⟨n', u', h, hg⟩
  · cases h
  · cases h
    rw [Nat.zero_add] at hg
    refine ⟨_, hg, rfl, rfl, rfl, rfl, rfl, rfl, rfl, ?_⟩
    simp [loaded]

theorem loadOne_needs {oc : Bool} {i : LoadIn} {sl : Slot} (h : (loadOne oc i sl).2 ≠ .err) :
    i.volInit = .ok ∧ i.frontInit = .ok ∧ i.frontOpen = true ∧ i.countersOk = true ∧ i.cutoffOk = true ∧
    (i.pool = true ∨ (oc = true ∧ i.volOpen = true) → i.lenOk = true) := by
  unfold loadOne at h
  by_cases e1 : i.volInit ≠ .ok
  · rw [if_pos e1] at h; exact absurd rfl h
  rw [if_neg e1] at h
  simp only at h
  by_cases e2 : (frontInit (loadVol oc i sl).front i.frontInit i.frontOpen).1 = false
  · rw [if_pos e2] at h; exact absurd rfl h
  rw [if_neg e2] at h
  have hf := front_needs (by simpa using e2)
  by_cases e3 : i.countersOk = false
  · rw [if_pos e3] at h; exact absurd rfl h
  rw [if_neg e3] at h
  by_cases e4 : i.cutoffOk = false
  · rw [if_pos e4] at h; exact absurd rfl h
  rw [if_neg e4] at h
  refine ⟨by simpa using e1, hf.1, hf.2, by simpa using e3, by simpa using e4, ?_⟩
  intro ho
  have ho' : ¬((loadVol oc i sl).opened = false) := by
    unfold loadVol
    rcases ho with ho | ho <;> simp [ho]
  rw [if_neg ho'] at h
  by_cases e6 : i.lenOk = false
  · rw [if_pos e6] at h; exact absurd rfl h
  · simpa using e6

theorem loadAll_needs {oc : Bool} {ins : Nat → LoadIn} : ∀ (img : List (Option (Nat × Nat))) (b : Nat),
    (loadAll oc ins b img).2.2 = true → ∀ (k : Nat) (p : Nat × Nat), img[k]? = some (some p) →
    (loadOne oc (ins (b + k)) (Slot.ofMeta (some p))).2 ≠ .err
  | [], _ => by intro _ k m hk; cases hk
  | x :: xs, b => by
    intro h k p hk
    unfold loadAll at h
    by_cases e : x = none
    · rw [if_pos e] at h
      cases k with
      | zero => subst e; cases hk
      | succ k =>
        have := loadAll_needs xs (b + 1) h k p hk
        rw [Nat.add_assoc, Nat.add_comm 1 k] at this
        exact this
    · rw [if_neg e] at h
      simp only at h
      by_cases e2 : (loadOne oc (ins b) (Slot.ofMeta x)).2 = .err
      · rw [if_pos e2] at h; cases h
      rw [if_neg e2] at h
      cases k with
      | zero =>
        have : x = some p := Option.some.inj hk
        rw [this] at e2
        exact e2
      | succ k =>
        have := loadAll_needs xs (b + 1) h k p hk
        rw [Nat.add_assoc, Nat.add_comm 1 k] at this
        exact this

/-- Success is told only if no call failed but the opening of volumes. -/
theorem load_needs {s : St} {oc : Bool} {ins : Nat → LoadIn} {img : List (Option (Nat × Nat))}
    (ht : Tells s (load s oc ins img) .load none true) (k : Nat) (p : Nat × Nat)
    (hk : img[k]? = some (some p)) :
    (ins k).volInit = .ok ∧ (ins k).frontInit = .ok ∧ (ins k).frontOpen = true ∧ (ins k).countersOk = true ∧
    (ins k).cutoffOk = true ∧
    ((ins k).pool = true ∨ (oc = true ∧ (ins k).volOpen = true) → (ins k).lenOk = true) := by
  have := loadAll_needs img 0 (load_eq_ok ht) k p hk
  rw [Nat.zero_add] at this
  exact loadOne_needs this

/-- A load that failed leaves no core, no front volume, no counters. Missing: the volumes of the cores, see
`load_error_leaks`. -/
theorem load_error_partial {s : St} {oc : Bool} {ins : Nat → LoadIn} {img : List (Option (Nat × Nat))}
    (ht : Tells s (load s oc ins img) .load none false) (k : Nat) (sl : Slot)
    (hg : (load s oc ins img).slots[k]? = some sl) :
    sl.added = false ∧ sl.front.opened = false ∧ sl.io = 0 ∧ sl.counters = false ∧ sl.cutoff = false := by
  unfold load at ht hg
  simp only at ht hg
  split at ht
  · cases (tell_pos (s := s) ht).2.2
  · rename_i e
    rw [if_neg e] at hg
    have hm := List.mem_of_getElem? hg
    obtain ⟨a, ha, rfl⟩ := List.mem_map.mp hm
    have h1 := loadAll_off img 0 a ha
    have h2 := deinitAdded_off (oc := oc) h1.1 h1.2
    have h3 := loadAll_cnt img 0 a ha
    refine ⟨?_, h2.1, h2.2, ?_, ?_⟩
    · unfold Slot.deinitAdded
      cases ea : a.added
      · simp [ea]
      · simp
    · unfold Slot.deinitAdded
      cases ea : a.added
      · simp [(h3 ea).1]
      · simp
    · unfold Slot.deinitAdded
      cases ea : a.added
      · simp [(h3 ea).2]
      · simp

/-- No call fails. -/
def LoadIn.fine (i : LoadIn) : Prop :=
  i.volInit = .ok ∧ i.frontInit = .ok ∧ i.frontOpen = true ∧ i.countersOk = true ∧ i.cutoffOk = true ∧
  i.lenOk = true

theorem loadAll_fine {oc : Bool} {ins : Nat → LoadIn} (hi : ∀ k, (ins k).fine) :
    ∀ (img : List (Option (Nat × Nat))) (b : Nat), (loadAll oc ins b img).2.2 = true
  | [], _ => rfl
  | x :: xs, b => by
    have ih := loadAll_fine (oc := oc) hi xs (b + 1)
    unfold loadAll
    split
    · exact ih
    · obtain ⟨h1, h2, h3, h4, h5, h6⟩ := hi b
      have e : (loadOne oc (ins b) (Slot.ofMeta x)).2 ≠ .err := by
        unfold loadOne
        simp only [h1, h2, h3, h4, h5, h6, frontInit]
        simp
        split <;> simp
      simp only
      rw [if_neg e]
      exact ih

/-- A load goes well if no call fails; cores whose volume cannot be opened do not make it fail. -/
theorem load_fine {s : St} {oc : Bool} {ins : Nat → LoadIn} {img : List (Option (Nat × Nat))}
    (hi : ∀ k, (ins k).fine) : Tells s (load s oc ins img) .load none true := by
  unfold load
  simp only [loadAll_fine hi img 0, if_true]
  rfl

/-! ### Runs -/

/-- The steps but a load, for the runs below. -/
inductive Act
  | add (i : AddIn)
  | tryAdd (i : TryIn)
  | rmStart (k : Nat) (e : Bool)
  | rmBody
  | rmClose
  | rmFlush (r : FlushR)
  | dtStart (k : Nat)
  | dtClose
  | stopStart
  | stopNext
  | stopClose
  | attachCache
  | detachCache
  | ioStart (k : Nat)
  | ioWork (k : Nat) (d : Bool)
  | ioEnd (k : Nat)
  | clean (k : Nat)

/-- One of them. -/
def act (s : St) : Act → Option St
  | .add i => if s.pend = .idle then some (add s i) else none
  | .tryAdd i => if s.pend = .idle then some (tryAdd s i) else none
  | .rmStart k e =>
    match s.slots[k]? with
    | some sl => if s.pend = .idle ∧ sl.added = true then some (rmStart s k sl e) else none
    | none => none
  | .rmBody =>
    match s.pend with
    | .rmBody k =>
      match s.slots[k]? with
      | some sl => some (rmBody s k sl)
      | none => none
    | _ => none
  | .rmClose =>
    match s.pend with
    | .rmClose k =>
      match s.slots[k]? with
      | some sl => if sl.io = 0 then some (rmClose s k sl) else none
      | none => none
    | _ => none
  | .rmFlush r =>
    match s.pend with
    | .rmFlush k => some (rmFlush s k r)
    | _ => none
  | .dtStart k =>
    match s.slots[k]? with
    | some sl => if s.pend = .idle ∧ sl.added = true then some (dtStart s k sl) else none
    | none => none
  | .dtClose =>
    match s.pend with
    | .dtClose k =>
      match s.slots[k]? with
      | some sl => if sl.io = 0 then some (dtClose s k sl) else none
      | none => none
    | _ => none
  | .stopStart => if s.pend = .idle then some (stopStart s) else none
  | .stopNext =>
    match s.pend with
    | .stop j no => some (stopNext s j no)
    | _ => none
  | .stopClose =>
    match s.pend with
    | .stopClose j no =>
      match s.slots[j]? with
      | some sl => if sl.io = 0 then some (stopClose s j no sl) else none
      | none => none
    | _ => none
  | .attachCache => if s.pend = .idle ∧ s.attached = false then some (attachCache s) else none
  | .detachCache => if s.pend = .idle ∧ s.attached = true then some (detachCache s) else none
  | .ioStart k =>
    match s.slots[k]? with
    | some sl => if sl.front.opened = true ∧ frozen s.pend k = false then some (ioStart s k sl) else none
    | none => none
  | .ioWork k d =>
    match s.slots[k]? with
    | some sl => if sl.io ≠ 0 then some (ioWork s k sl d) else none
    | none => none
  | .ioEnd k =>
    match s.slots[k]? with
    | some sl => if sl.io ≠ 0 then some (ioEnd s k sl) else none
    | none => none
  | .clean k =>
    match s.slots[k]? with
    | some sl => some (clean s k sl)
    | none => none

theorem act_step {s s' : St} {x : Act} (h : act s x = some s') : Step s s' := by
  cases x with
  | add i =>
    simp only [act] at h
    split at h
    · rename_i hp; cases h; exact .add s i hp
    · cases h
  | tryAdd i =>
    simp only [act] at h
    split at h
    · rename_i hp; cases h; exact .tryAdd s i hp
    · cases h
  | rmStart k e =>
    simp only [act] at h
    split at h
    · rename_i sl hg
      split at h
      · rename_i hp; cases h; exact .rmStart s k sl e hp.1 hg hp.2
      · cases h
    · cases h
  | rmBody =>
    simp only [act] at h
    split at h
    · rename_i k hp
      split at h
      · rename_i sl hg; cases h; exact .rmBody s k sl hp hg
      · cases h
    · cases h
  | rmClose =>
    simp only [act] at h
    split at h
    · rename_i k hp
      split at h
      · rename_i sl hg
        split at h
        · rename_i hi; cases h; exact .rmClose s k sl hp hg hi
        · cases h
      · cases h
    · cases h
  | rmFlush r =>
    simp only [act] at h
    split at h
    · rename_i k hp; cases h; exact .rmFlush s k r hp
    · cases h
  | dtStart k =>
    simp only [act] at h
    split at h
    · rename_i sl hg
      split at h
      · rename_i hp; cases h; exact .dtStart s k sl hp.1 hg hp.2
      · cases h
    · cases h
  | dtClose =>
    simp only [act] at h
    split at h
    · rename_i k hp
      split at h
      · rename_i sl hg
        split at h
        · rename_i hi; cases h; exact .dtClose s k sl hp hg hi
        · cases h
      · cases h
    · cases h
  | stopStart =>
    simp only [act] at h
    split at h
    · rename_i hp; cases h; exact .stopStart s hp
    · cases h
  | stopNext =>
    simp only [act] at h
    split at h
    · rename_i j no hp; cases h; exact .stopNext s j no hp
    · cases h
  | stopClose =>
    simp only [act] at h
    split at h
    · rename_i j no hp
      split at h
      · rename_i sl hg
        split at h
        · rename_i hi; cases h; exact .stopClose s j no sl hp hg hi
        · cases h
      · cases h
    · cases h
  | attachCache =>
    simp only [act] at h
    split at h
    · rename_i hp; cases h; exact .attachCache s hp.1 hp.2
    · cases h
  | detachCache =>
    simp only [act] at h
    split at h
    · rename_i hp; cases h; exact .detachCache s hp.1 hp.2
    · cases h
  | ioStart k =>
    simp only [act] at h
    split at h
    · rename_i sl hg
      split at h
      · rename_i hp; cases h; exact .ioStart s k sl hg hp.1 hp.2
      · cases h
    · cases h
  | ioWork k d =>
    simp only [act] at h
    split at h
    · rename_i sl hg
      split at h
      · rename_i hp; cases h; exact .ioWork s k sl d hg hp
      · cases h
    · cases h
  | ioEnd k =>
    simp only [act] at h
    split at h
    · rename_i sl hg
      split at h
      · rename_i hp; cases h; exact .ioEnd s k sl hg hp
      · cases h
    · cases h
  | clean k =>
    simp only [act] at h
    split at h
    · rename_i sl hg; cases h; exact .clean s k sl hg
    · cases h

/-- Some of them. -/
def acts (s : St) : List Act → Option St
  | [] => some s
  | x :: xs => (act s x).bind (fun t => acts t xs)

theorem acts_run {n : Nat} : ∀ (xs : List Act) (s s' : St), Run n s → acts s xs = some s' → Run n s'
  | [], _, _, hr, h => by cases h; exact hr
  | x :: xs, s, s', hr, h => by
    simp only [acts] at h
    cases e : act s x with
    | none => rw [e] at h; cases h
    | some t =>
      rw [e] at h
      exact acts_run xs t s' (Reach.step hr (act_step e)) h

/-- A call in which all goes well. -/
def goodAdd (nm uu : Nat) : AddIn :=
  { name := nm, uuid := uu, nameOk := true, uuidOk := true, volInit := .ok, metaOk := true, volOpen := true,
    lenOk := true, cleanOk := true, cutoffOk := true, countersOk := true, seqOk := true, flush := .ok,
    frontInit := .ok, frontOpen := true }

def goodTry (nm uu : Nat) : TryIn :=
  { name := nm, uuid := uu, typeOk := true, volOpen := true, lenOk := true, frontInit := .ok, frontOpen := true }

/-- A state after such steps, of a cache with three places. -/
theorem run3 {s : St} (xs : List Act) (h : acts (fresh 3) xs = some s) : Run 3 s :=
  acts_run xs _ _ (Reach.init rfl) h

/-- Attach a device, add two cores, write to the first, detach it, attach it, remove the second, stop. -/
def exAll : List Act :=
  [.attachCache, .add (goodAdd 7 70), .add (goodAdd 8 80), .ioStart 1, .ioWork 1 true, .ioEnd 1, .dtStart 1,
   .dtClose, .tryAdd (goodTry 7 70), .rmStart 2 false, .rmBody, .rmClose, .rmFlush .ok]

/-- The cache after it. -/
def exSt : St := (acts (fresh 3) exAll).getD (fresh 0)

theorem ex_acts : acts (fresh 3) exAll = some exSt := by decide

theorem ex_run : Run 3 exSt := run3 exAll ex_acts

example : Usable exSt ∧ exSt.count = 1 ∧ exSt.inactive = 0 ∧ exSt.sb = [none, some (7, 70), none] ∧
    exSt.told = [(.add, some 1, true), (.add, some 2, true), (.detach, some 1, true), (.attach, some 1, true),
      (.remove, some 2, true)] ∧ exSt.busy = false ∧ exSt.uaf = false ∧ exSt.pend = .idle := by
  unfold Usable; decide

example : (exSt.slots[1]?.map (fun sl => (sl.data, sl.opened, sl.cleaning))) = some (true, true, true) := by decide

example : exSt.sb = listed exSt := device_current_partial ex_run (by unfold Usable; decide) (by decide) (by decide) (by decide)

/-- And stop. -/
example : ∃ s, Run 3 s ∧ s.pend = .stopped ∧ Usable s ∧ (s.slots[1]?.map (fun sl => sl.added)) = some false ∧
    s.slots.length = 3 := by
  refine ⟨((acts exSt [.stopStart, .stopNext, .stopNext, .stopClose]).getD (fresh 0)),
    acts_run [.stopStart, .stopNext, .stopNext, .stopClose] exSt _ ex_run (by decide), ?_⟩
  unfold Usable; decide

example : AddIn.fine (goodAdd 9 90) ∧ Tells exSt (add exSt (goodAdd 9 90)) .add (some 2) true := by
  unfold AddIn.fine Tells; decide

/-- The place 0 comes last. -/
example : ∃ s, acts (fresh 3) [.add (goodAdd 7 70), .add (goodAdd 8 80), .add (goodAdd 9 90), .add (goodAdd 5 50)] = some s ∧
    s.told = [(.add, some 1, true), (.add, some 2, true), (.add, some 0, true), (.add, none, false)] := by
  exact ⟨_, rfl, by decide⟩

/-- A step that tells of a removal. -/
example : ∃ s s', Run 3 s ∧ Usable s ∧ Step s s' ∧ Tells s s' .remove (some 1) true ∧ s'.attached = true := by
  let xs : List Act := [.attachCache, .add (goodAdd 7 70), .rmStart 1 false, .rmBody, .rmClose]
  refine ⟨(acts (fresh 3) xs).getD (fresh 0), _, run3 xs (by decide), ?_, act_step (x := .rmFlush .ok)
    (s' := ((acts (fresh 3) (xs ++ [.rmFlush .ok])).getD (fresh 0))) (by decide), ?_, ?_⟩
  · unfold Usable; decide
  · unfold Tells; decide
  · decide

/-- An operation under way. -/
example : ∃ s, Run 3 s ∧ Usable s ∧ s.pend = .stopClose 1 1 ∧ s.fe = false ∧ ∀ sl ∈ s.slots, sl.io = 0 := by
  let xs : List Act := [.add (goodAdd 7 70), .stopStart, .stopNext, .stopNext]
  refine ⟨(acts (fresh 3) xs).getD (fresh 0), run3 xs (by decide), ?_, by decide, by decide, by decide⟩
  unfold Usable; decide

/-- How the calls of a load go below: the volume cannot be opened. -/
def exIn : Nat → LoadIn := fun _ =>
  { volInit := .ok, pool := false, volOpen := false, frontInit := .ok, frontOpen := true, countersOk := true,
    cutoffOk := true, lenOk := true }

/-- A superblock with one core. -/
def exImg : List (Option (Nat × Nat)) := [none, some (7, 70)]

theorem exImg_get {a : Nat} {p : Nat × Nat} (h : exImg[a]? = some (some p)) : a = 1 := by
  match a with
  | 0 => simp [exImg] at h
  | 1 => rfl
  | a + 2 => simp [exImg] at h

/-- The cache with that superblock loaded. -/
def exLoad (ins : Nat → LoadIn) (oc : Bool) : St := load (fresh 2) oc ins exImg

theorem exLoad_run (ins : Nat → LoadIn) (oc : Bool) : Run 2 (exLoad ins oc) := by
  refine Reach.step (Reach.init rfl) (Step.load _ oc ins exImg rfl ?_ rfl rfl ?_ ?_)
  · intro sl h
    exact List.eq_of_mem_replicate h
  · intro a b n u v ha hb
    rw [exImg_get ha, exImg_get hb]
  · intro a b n m u ha hb
    rw [exImg_get ha, exImg_get hb]

example : (∀ k, (exIn k).fine) ∧ Tells (fresh 2) (exLoad exIn true) .load none true ∧
    (exLoad exIn true).inactive = 1 ∧ (exLoad exIn true).incomplete = true := by
  refine ⟨fun _ => ?_, ?_, ?_, ?_⟩
  · unfold LoadIn.fine exIn; decide
  · unfold Tells; decide
  · decide
  · decide

/-! ### What does not hold -/

/-- An attach whose front volume does not open fails, yet the core is open and no longer counted as inactive. -/
theorem attach_error_opens : ∃ s s', Run 3 s ∧ Usable s ∧ Step s s' ∧ Tells s s' .attach (some 1) false ∧
    s.inactive = 1 ∧ s'.inactive = 0 ∧
    (s'.slots[1]?.map (fun sl => (sl.opened, sl.front.opened))) = some (true, false) := by
  let xs : List Act := [.add (goodAdd 7 70), .dtStart 1, .dtClose]
  let y : Act := .tryAdd { goodTry 7 70 with frontOpen := false }
  refine ⟨(acts (fresh 3) xs).getD (fresh 0), _, run3 xs (by decide), ?_, act_step (x := y)
    (s' := ((acts (fresh 3) (xs ++ [y])).getD (fresh 0))) (by decide), ?_, ?_, ?_, ?_⟩
  · unfold Usable; decide
  · unfold Tells; decide
  · decide
  · decide
  · decide

/-- After that the core can neither be detached nor removed, nor can the cache be stopped: a NULL pointer is
followed. -/
theorem attach_error_crash : ∀ x ∈ ([[.dtStart 1], [.rmStart 1 false, .rmBody], [.stopStart, .stopNext, .stopNext]] : List (List Act)),
    ∃ s, Run 3 s ∧ s.crash = true ∧ acts (fresh 3) ([.add (goodAdd 7 70), .dtStart 1, .dtClose,
      .tryAdd { goodTry 7 70 with frontOpen := false }] ++ x) = some s := by
  intro x hx
  have e : ∀ x ∈ ([[.dtStart 1], [.rmStart 1 false, .rmBody], [.stopStart, .stopNext, .stopNext]] : List (List Act)),
      ∃ s, s.crash = true ∧ acts (fresh 3) ([.add (goodAdd 7 70), .dtStart 1, .dtClose,
        .tryAdd { goodTry 7 70 with frontOpen := false }] ++ x) = some s := by
    intro x hx
    simp only [List.mem_cons, List.not_mem_nil, or_false] at hx
    rcases hx with rfl | rfl | rfl
    · exact ⟨_, (by decide), rfl⟩
    · exact ⟨_, (by decide), rfl⟩
    · exact ⟨_, (by decide), rfl⟩
  obtain ⟨s, h1, h2⟩ := e x hx
  exact ⟨s, run3 _ h2, h1, h2⟩

/-- Adding fails in its last step, and the superblock on the device names the core. -/
theorem add_error_on_device : ∃ s s', Run 3 s ∧ Usable s ∧ Step s s' ∧ Tells s s' .add (some 1) false ∧
    s.attached = true ∧ listed s' = [none, none, none] ∧ s'.sb = [none, some (7, 70), none] := by
  let xs : List Act := [.attachCache]
  let y : Act := .add { goodAdd 7 70 with frontOpen := false }
  refine ⟨(acts (fresh 3) xs).getD (fresh 0), _, run3 xs (by decide), ?_, act_step (x := y)
    (s' := ((acts (fresh 3) (xs ++ [y])).getD (fresh 0))) (by decide), ?_, ?_, ?_, ?_⟩
  · unfold Usable; decide
  · unfold Tells; decide
  · decide
  · decide
  · decide

/-- A removal fails, the core is still there, and the data that only the cache had is gone. -/
theorem remove_error_drops_data : ∃ s s', Run 3 s ∧ Usable s ∧ Step s s' ∧ Tells s s' .remove (some 1) false ∧
    (s.slots[1]?.map (fun sl => (sl.added, sl.data))) = some (true, true) ∧
    (s'.slots[1]?.map (fun sl => (sl.added, sl.data))) = some (true, false) := by
  let xs : List Act := [.attachCache, .add (goodAdd 7 70), .ioStart 1, .ioWork 1 true, .ioEnd 1]
  let y : Act := .rmStart 1 true
  refine ⟨(acts (fresh 3) xs).getD (fresh 0), _, run3 xs (by decide), ?_, act_step (x := y)
    (s' := ((acts (fresh 3) (xs ++ [y])).getD (fresh 0))) (by decide), ?_, ?_, ?_⟩
  · unfold Usable; decide
  · unfold Tells; decide
  · decide
  · decide

/-- A removal fails, and the core is gone; the superblock still names it. -/
theorem remove_error_removed : ∃ s s', Run 3 s ∧ Usable s ∧ Step s s' ∧ Tells s s' .remove (some 1) false ∧
    (s'.slots[1]?.map (fun sl => sl.added)) = some false ∧ s'.sb = [none, some (7, 70), none] := by
  let xs : List Act := [.attachCache, .add (goodAdd 7 70), .rmStart 1 false, .rmBody, .rmClose]
  let y : Act := .rmFlush (.err false)
  refine ⟨(acts (fresh 3) xs).getD (fresh 0), _, run3 xs (by decide), ?_, act_step (x := y)
    (s' := ((acts (fresh 3) (xs ++ [y])).getD (fresh 0))) (by decide), ?_, ?_, ?_⟩
  · unfold Usable; decide
  · unfold Tells; decide
  · decide
  · decide

/-- A core is removed while a request is under way: the request counts itself in freed memory. -/
theorem remove_busy_uses_freed : ∃ s, Run 3 s ∧ s.uaf = true ∧ s.li = false ∧ s.fe = false := by
  refine ⟨_, run3 [.add (goodAdd 7 70), .ioStart 1, .rmStart 1 false, .rmBody, .ioWork 1 false] rfl, ?_⟩
  decide

/-- A core that a load left inactive is removed: its front volume is still open, and a request to it uses freed
memory. -/
theorem inactive_front_left : ∃ s, Run 2 s ∧ Usable s ∧ s.uaf = true ∧ s.busy = false ∧
    s.told = [(.load, none, true), (.remove, some 1, true)] ∧
    (s.slots[1]?.map (fun sl => (sl.added, sl.front.opened, sl.io))) = some (false, true, 1) := by
  refine ⟨_, acts_run [.rmStart 1 false, .rmBody, .rmFlush .ok, .ioStart 1, .ioWork 1 false] _ _ (exLoad_run exIn true) rfl, ?_⟩
  unfold Usable; decide

/-- A core that a load left inactive is attached: its front volume is initialized anew, and what it had is lost. -/
theorem inactive_front_leaks : ∃ s, Run 2 s ∧ Usable s ∧ s.leaked = 1 ∧ s.fe = false ∧
    s.told = [(.load, none, true), (.attach, some 1, true)] := by
  refine ⟨_, acts_run [.tryAdd (goodTry 7 70)] _ _ (exLoad_run exIn true) rfl, ?_⟩
  unfold Usable; decide

/-- A load fails and leaves the volume of a core allocated, and open if it came from the pool of cores. -/
theorem load_error_leaks : ∃ s, Run 2 s ∧ s.told = [(.load, none, false)] ∧
    (s.slots[1]?.map (fun sl => (sl.added, sl.vol.priv, sl.vol.opened))) = some (false, true, true) := by
  refine ⟨_, exLoad_run (fun k => { exIn k with pool := true, lenOk := false }) false, ?_⟩
  decide

end Verif.CoreMngt
