import Verif.Lemma.CoreMngtAdd

/-!
Every step of `Verif.CoreMngt` keeps the invariant.
-/

namespace Verif.CoreMngt

theorem set_self {l : List Slot} {k : Nat} {x : Slot} (h : l[k]? = some x) : l.set k x = l := by
  apply List.ext_getElem?
  intro j
  rw [List.getElem?_set]
  by_cases e : k = j
  · subst e
    have hk : k < l.length := by
      rcases Nat.lt_or_ge k l.length with h1 | h1
      · exact h1
      · rw [List.getElem?_eq_none h1] at h; cases h
    simp [hk, h]
    rw [List.getElem?_eq_getElem hk] at h
    exact (Option.some.inj h).symm
  · rw [if_neg e]

theorem G.tell {s : St} (g : G s) (o : Op) (k : Option Nat) (b : Bool) : G (tell s o k b) :=
  ⟨g.slots, g.count, g.inact, g.inc, g.names, g.uuids, g.crash, g.leaked, g.uaf, g.sb, g.stop, g.nfail⟩

theorem findFree_spec {l : List Slot} {k : Nat} {sl : Slot} (h : findFree l = some k)
    (hg : l[k]? = some sl) : sl.bit = false := by
  unfold findFree at h
  cases hf : l.tail.findIdx? (fun sl => !sl.bit) with
  | some j =>
    rw [hf] at h
    simp only [Option.some.injEq] at h
    subst h
    rw [List.findIdx?_eq_some_iff_getElem] at hf
    obtain ⟨hj, hp, _⟩ := hf
    cases l with
    | nil => simp at hj
    | cons a l =>
      simp at hg hp hj
      rw [List.getElem?_eq_getElem hj] at hg
      cases hg
      exact hp
  | none =>
    rw [hf] at h
    cases l with
    | nil => cases h
    | cons a l =>
      simp only at h
      by_cases e : a.bit = true
      · rw [if_pos e] at h; cases h
      · rw [if_neg e] at h
        cases h
        simp at hg
        subst hg
        simpa using e

/-- A free place of an idle cache. -/
theorem SOk.free {att fe li busy : Bool} {sl : Slot} (h : SOk att fe li busy false .norm sl)
    (hb : sl.bit = false) : Free sl := by
  have hv : sl.valid = false := by rw [← h.bit]; exact hb
  have ha : sl.added = false := by
    cases e : sl.added
    · rfl
    · rw [h.val e] at hv; cases hv
  have ho : sl.opened = false := by
    cases e : sl.opened
    · rfl
    · rcases h.opn e with c | c
      · rw [ha] at c; cases c
      · cases c
  exact ⟨hv, hb, ha, ho, by rw [h.cnt, ha], by rw [h.cut, ha], by rw [h.cln rfl, ha, Bool.and_false],
    h.volN ha ho, by rw [h.volO, ho]⟩

theorem Free.meta {sl : Slot} (h : Free sl) : sl.meta = none := by
  unfold Slot.meta; rw [h.valid]; rfl

/-- A free place replaced by one. -/
theorem G.undone {s s' : St} {k : Nat} {x y : Slot} (g : G s) (hid : s.pend = .idle)
    (hg : s.slots[k]? = some x) (fx : Free x) (fy : Free y) (hd : y.data = x.data) (hio : y.io = x.io)
    (hfr : s.li = false → y.front.priv = false ∧ y.front.opened = false)
    (hs : s'.slots = s.slots.set k y) (ha : s'.attached = s.attached) (h1 : s'.fe = s.fe)
    (h2 : s'.li = s.li) (h3 : s'.busy = s.busy) (hc : s'.count = s.count) (hi : s'.inactive = s.inactive)
    (hinc : s'.incomplete = s.incomplete) (hcr : s'.crash = s.crash) (huf : s'.uaf = s.uaf)
    (hl : s'.leaked ≠ 0 → s.li = true) (hp : s'.pend = .idle)
    (hsb : s'.attached = true → s'.stale = false → s.stale = false ∧ s'.sb = s.sb) : G s' := by
  have hx := g.slots k x hg
  rw [hid] at hx
  refine g.upd hg hs ?_ ha (by rw [hp, hid]) (fun j _ => by rw [hp, hid]) (by rw [h1]; exact id)
    (by rw [h2]; exact id) (by rw [h3]; exact id) ?_ ?_ ?_ ?_ ?_ ?_ ?_ ?_ ?_ ?_ ?_
  · rw [ha, h1, h2, h3, hp]
    refine ⟨by rw [fy.bit, fy.valid], ?_, ?_, by rw [fy.counters, fy.added], by rw [fy.cutoff, fy.added], ?_,
      ?_, ?_, ?_, ?_, ?_, by rw [fy.vopen, fy.opened], fun _ _ => fy.priv, ?_, fun _ h => hfr h, ?_, ?_, ?_,
      fun h => (by cases h), ?_, ?_⟩
    · rw [fy.added]; intro h; cases h
    · rw [fy.valid]; intro h; cases h
    · rw [fy.opened]; intro h; cases h
    · intro h; cases h
    · intro h; cases h
    · intro h; cases h
    · intro h; cases h
    · rw [fy.added, fy.opened]; intro h; rcases h with h | h <;> cases h
    · rw [fy.opened]; intro h; cases h
    · intro hli hn
      rw [hio] at hn
      have := hx.ioF hli hn
      rw [(hx.frN fx.opened hli).2] at this; cases this
    · intro h; rcases h with h | h <;> cases h
    · intro _; rw [fy.cleaning, fy.added, Bool.and_false]
    · intro h _
      rw [hd] at h
      exact hx.dat h (Or.inl fx.valid)
    · intro h; rw [hd] at h; exact hx.dat2 h
  · rw [hc, fx.valid, fy.valid]; simp
  · rw [hi, fx.added, fy.added]; simp
  · rw [hinc, hi]; exact g.inc
  · rw [fy.added]; intro h; cases h
  · rw [fy.valid]; intro h; cases h
  · rw [hcr, h1]; exact g.crash
  · rw [h2]; exact hl
  · rw [huf, h2, h3]; exact g.uaf
  · intro a b _
    have hb := hsb a b
    rw [hb.2, hs, image_set _ _ _ _ hg (by rw [fx.meta, fy.meta])]
    exact g.sb (by rw [← ha]; exact a) hb.1 (by rw [hid]; rfl)
  · rw [hp]; trivial
  · rw [hp]; intro h; cases h

/-- What a failed front volume is. -/
theorem frontInit_fail {f : Vol} {ri : InitR} {ro : Bool} (h : (frontInit f ri ro).1 = false)
    (hp : f.priv = false) (ho : f.opened = false) :
    (frontInit f ri ro).2.priv = false ∧ (frontInit f ri ro).2.opened = false := by
  unfold frontInit at h ⊢
  cases ri with
  | ok =>
    cases ro
    · exact ⟨rfl, rfl⟩
    · simp at h
  | noType => exact ⟨hp, ho⟩
  | noMem => exact ⟨rfl, ho⟩
  | late => exact ⟨rfl, rfl⟩

theorem frontInit_ok {f : Vol} {ri : InitR} {ro : Bool} (h : (frontInit f ri ro).1 = true) :
    (frontInit f ri ro).2 = ⟨true, true, true⟩ := by
  unfold frontInit at h ⊢
  cases ri with
  | ok =>
    cases ro
    · simp at h
    · rfl
  | noType => cases h
  | noMem => cases h
  | late => cases h

theorem lost_zero {f : Vol} {r : InitR} (h : f.priv = false) : f.lost r = 0 := by
  unfold Vol.lost; rw [if_neg]; rw [h]; simp

theorem handleError_spec0 {sl0 : Slot} {n l : Int} {c : Ctx} (h : CI sl0 n l c) :
    Undone sl0 sl0.front n l (handleError c) := by
  have := handleError_spec h c.slot.front 0
  simp only [Nat.add_zero] at this
  rw [h.front] at this
  have e : ({ c with slot := { c.slot with front := sl0.front }, leaked := c.leaked } : Ctx) = c := by
    rw [← h.front]
  rw [e] at this
  simpa using this

theorem G.addAt {s : St} {i : AddIn} {k : Nat} {sl : Slot} (g : G s) (hid : s.pend = .idle)
    (hg : s.slots[k]? = some sl) (hb : sl.bit = false)
    (hn : ∀ (j : Nat) (z : Slot), s.slots[j]? = some z → z.added = true → z.name ≠ i.name)
    (hu : ∀ (j : Nat) (z : Slot), s.slots[j]? = some z → z.valid = true → z.uuid ≠ i.uuid) :
    G (addAt s i k sl) := by
  have hx := g.slots k sl hg
  rw [hid] at hx
  have fx : Free sl := SOk.free hx hb
  have hfr := hx.frN fx.opened
  have hsp := spec_insert i sl s.count s.leaked s.attached (Ctx.start s sl) (CI.start fx)
    ⟨by omega, by omega, rfl, rfl, by simp [Ctx.start], rfl, rfl⟩
  unfold CoreMngt.addAt
  generalize hr : insert s.attached i (Ctx.start s sl) = r at hsp
  obtain ⟨rb, rc⟩ := r
  obtain ⟨hci, hpost⟩ := hsp
  simp only at hci hpost ⊢
  have hu0 := handleError_spec0 hci
  by_cases e : rb = false
  · rw [if_pos e]
    apply G.tell
    refine g.undone hid hg fx hu0.free hu0.data hu0.io ?_ rfl rfl rfl rfl rfl hu0.count rfl rfl rfl rfl ?_ hid
      (fun _ h => ⟨h, rfl⟩)
    · rw [hu0.front]; exact hfr
    · intro h
      have := hu0.leaked
      exact g.leaked (by have h' : (handleError rc).leaked ≠ 0 := h; omega)
  · rw [if_neg e]
    have et : rb = true := by cases rb <;> simp_all
    have hpr := hpost et
    by_cases e2 : s.attached = true ∧ i.flush ≠ .ok
    · rw [if_pos e2]
      apply G.tell
      refine g.undone hid hg fx hu0.free hu0.data hu0.io ?_ ?_ ?_ ?_ ?_ ?_ hu0.count ?_ ?_ ?_ ?_ ?_ ?_ ?_
      · rw [hu0.front]; exact hfr
      · simp only [put, e2.1, if_true]; rw [List.set_set]
      · simp [put, e2.1]
      · simp [put, e2.1]
      · simp [put, e2.1]
      · simp [put, e2.1]
      · simp [put, e2.1]
      · simp [put, e2.1]
      · simp [put, e2.1]
      · simp [put, e2.1]
      · intro h
        have := hu0.leaked
        exact g.leaked (by have h' : (handleError rc).leaked ≠ 0 := h; omega)
      · simp [put, e2.1, hid]
      · intro _ h
        simp [put, e2.1] at h
        exact absurd h e2.2
    · rw [if_neg e2]
      have hfl : s.attached = true → i.flush = .ok := by
        intro ha
        apply Classical.byContradiction
        intro hne
        exact e2 ⟨ha, hne⟩
      have hfe : rc.slot.front = sl.front := hci.front
      by_cases e3 : (frontInit rc.slot.front i.frontInit i.frontOpen).1 = true
      · rw [if_pos e3]
        have hf := frontInit_ok e3
        apply G.tell
        have hco : rc.counters = true := hpr.co
        have hcu : rc.cutoff = true := hpr.cu
        have hvi : rc.volInited = true := hpr.vi
        have hvo : rc.volOpened = true := hpr.vo
        refine g.upd (x := sl)
          (y := { rc.slot with front := (frontInit rc.slot.front i.frontInit i.frontOpen).2 }) hg ?_ ?_ ?_ ?_ ?_
          ?_ ?_ ?_ ?_ ?_ ?_ ?_ ?_ ?_ ?_ ?_ ?_ ?_ ?_
        · by_cases ha : s.attached = true
          · simp only [put, ha, if_true]; rw [List.set_set]
          · simp only [put, ha]; exact List.set_set ..
        · have e4 : stopping s.pend = false := by rw [hid]; rfl
          have hcl : rc.slot.cleaning = s.attached := by rw [hci.cleaning, hpr.cl]; simp
          by_cases ha : s.attached = true
          · simp only [put, ha, if_true, hid]
            refine ⟨?_, ?_, ?_, ?_, ?_, ?_, ?_, ?_, ?_, ?_, ?_, ?_, ?_, ?_, ?_, ?_, ?_, ?_, ?_, ?_, ?_⟩ <;>
              simp only [hci.valid, hci.bit, hci.added, hci.opened, hci.counters, hci.cutoff, hci.priv, hci.vopen,
                hco, hcu, hvi, hvo, hf, (hci.vi hvi).1, (hci.vi hvi).2, hcl, ha, phase, stopping] <;> simp
          · have ha' : s.attached = false := by cases h : s.attached <;> simp_all
            simp only [put, ha', hid]
            have hd : sl.data = false := by
              cases h : sl.data
              · rfl
              · rw [hx.dat2 h] at ha'; cases ha'
            refine ⟨?_, ?_, ?_, ?_, ?_, ?_, ?_, ?_, ?_, ?_, ?_, ?_, ?_, ?_, ?_, ?_, ?_, ?_, ?_, ?_, ?_⟩ <;>
              simp [hci.valid, hci.bit, hci.added, hci.opened, hci.counters, hci.cutoff, hci.priv, hci.vopen,
                hco, hcu, hvi, hvo, hf, (hci.vi hvi).1, (hci.vi hvi).2, hcl, ha', phase, stopping, hci.data, hd]
        · by_cases ha : s.attached = true <;> simp [put, ha]
        · by_cases ha : s.attached = true <;> simp [put, ha]
        · intro j hj; by_cases ha : s.attached = true <;> simp [put, ha]
        · by_cases ha : s.attached = true <;> simp [put, ha]
        · by_cases ha : s.attached = true <;> simp [put, ha]
        · by_cases ha : s.attached = true <;> simp [put, ha]
        · have h1 := hci.count
          rw [hco] at h1
          have h2 : rc.slot.valid = true := by rw [hci.valid]; exact hco
          simp only [put]
          rw [h1, h2, fx.valid]; simp [b2i]
        · have h2 : rc.slot.opened = true := by rw [hci.opened]; exact hco
          simp only [h2, fx.added]
          by_cases ha : s.attached = true <;> simp [put, ha]
        · have := g.inc
          by_cases ha : s.attached = true <;> simp [put, ha] <;> simpa using this
        · intro _ j z hj hz za
          have : rc.slot.name = i.name := hpr.name (by omega)
          simp only [this]
          exact hn j z hz za
        · intro _ j z hj hz za
          have : rc.slot.uuid = i.uuid := hpr.uuid (by omega)
          simp only [this]
          exact hu j z hz za
        · have := g.crash
          by_cases ha : s.attached = true <;> simp [put, ha] <;> simpa using this
        · intro h
          have h' : rc.leaked + rc.slot.front.lost i.frontInit ≠ 0 := h
          have hli : s.li = true := by
            cases hl : s.li
            · rw [hfe, lost_zero (hfr hl).1] at h'
              have := hci.leaked
              have := g.leaked (by omega)
              rw [hl] at this; cases this
            · rfl
          by_cases ha : s.attached = true <;> simp [put, ha, hli]
        · have := g.uaf
          by_cases ha : s.attached = true <;> simp [put, ha] <;> simpa using this
        · intro ha _ _
          have ha' : s.attached = true := by
            by_cases h : s.attached = true
            · exact h
            · simp [put, h] at ha
          simp only [put, ha', if_true, hfl ha', FlushR.dev, List.set_set]
          have hk : k < s.slots.length := by
            rcases Nat.lt_or_ge k s.slots.length with h1 | h1
            · exact h1
            · rw [List.getElem?_eq_none h1] at hg; cases hg
          unfold image
          rw [List.map_set, List.map_set]
          rfl
        · by_cases ha : s.attached = true <;> simp [put, ha, hid, StopOk]
        · by_cases ha : s.attached = true <;> simp [put, ha, hid]
      · rw [if_neg e3]
        have e3' : (frontInit rc.slot.front i.frontInit i.frontOpen).1 = false := by
          cases h : (frontInit rc.slot.front i.frontInit i.frontOpen).1 <;> simp_all
        have hu1 := handleError_spec hci (frontInit rc.slot.front i.frontInit i.frontOpen).2
          (rc.slot.front.lost i.frontInit)
        apply G.tell
        refine g.undone hid hg fx hu1.free hu1.data hu1.io ?_ ?_ ?_ ?_ ?_ ?_ hu1.count ?_ ?_ ?_ ?_ ?_ ?_ ?_
        · intro hl
          rw [hu1.front]
          exact frontInit_fail e3' (by rw [hfe]; exact (hfr hl).1) (by rw [hfe]; exact (hfr hl).2)
        · by_cases ha : s.attached = true
          · simp only [put, ha, if_true]; rw [List.set_set]
          · simp only [put, ha]; exact List.set_set ..
        · by_cases ha : s.attached = true <;> simp [put, ha]
        · by_cases ha : s.attached = true <;> simp [put, ha]
        · by_cases ha : s.attached = true <;> simp [put, ha]
        · by_cases ha : s.attached = true <;> simp [put, ha]
        · by_cases ha : s.attached = true <;> simp [put, ha]
        · by_cases ha : s.attached = true <;> simp [put, ha]
        · by_cases ha : s.attached = true <;> simp [put, ha]
        · by_cases ha : s.attached = true <;> simp [put, ha]
        · intro h
          have hlk := hu1.leaked
          cases hl : s.li
          · rw [hfe, lost_zero (hfr hl).1] at hlk
            have h' : (handleError { rc with
              slot := { rc.slot with front := (frontInit rc.slot.front i.frontInit i.frontOpen).2 }
              leaked := rc.leaked + rc.slot.front.lost i.frontInit }).leaked ≠ 0 := h
            rw [hfe] at h'
            rw [lost_zero (hfr hl).1] at h'
            have := g.leaked (by omega)
            rw [hl] at this; cases this
          · rfl
        · by_cases ha : s.attached = true <;> simp [put, ha, hid]
        · intro ha h
          have ha' : s.attached = true := by
            by_cases h : s.attached = true
            · exact h
            · simp [put, h] at ha
          simp [ha'] at h

theorem any_false {l : List Slot} {p : Slot → Bool} (h : ¬ l.any p = true) (j : Nat) (z : Slot)
    (hz : l[j]? = some z) : p z = false := by
  cases hp : p z
  · rfl
  · exfalso; apply h
    rw [List.any_eq_true]
    exact ⟨z, List.mem_of_getElem? hz, hp⟩

theorem G.add {s : St} {i : AddIn} (g : G s) (hid : s.pend = .idle) : G (add s i) := by
  unfold CoreMngt.add
  by_cases e1 : s.slots.any (fun sl => sl.added && sl.name == i.name) = true
  · rw [if_pos e1]; exact g.tell _ _ _
  rw [if_neg e1]
  by_cases e2 : s.slots.any (fun sl => sl.valid && sl.uuid == i.uuid) = true
  · rw [if_pos e2]; exact g.tell _ _ _
  rw [if_neg e2]
  cases hf : findFree s.slots with
  | none => exact g.tell _ _ _
  | some k =>
    simp only
    cases hg : s.slots[k]? with
    | none => exact g.tell _ _ _
    | some sl =>
      refine g.addAt hid hg (findFree_spec hf hg) ?_ ?_
      · intro j z hz za
        have := any_false e1 j z hz
        simpa [za] using this
      · intro j z hz za
        have := any_false e2 j z hz
        simpa [za] using this

end Verif.CoreMngt
