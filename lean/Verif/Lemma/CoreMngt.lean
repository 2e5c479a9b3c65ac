import Verif.Model.CoreMngt

/-!
The invariant of the places for cores (`Verif.CoreMngt`) and the lemmas that keep it.
-/

namespace Verif.CoreMngt

/-- What the operation under way is doing with a place. -/
inductive Ph
  | norm
  | body
  | closing
  | gone
  | dt
deriving DecidableEq, Repr

/-- What the operation under way is doing with place `k`. -/
def phase (p : Pend) (k : Nat) : Ph :=
  match p with
  | .rmBody j => if j = k then .body else .norm
  | .rmClose j => if j = k then .closing else .norm
  | .stopClose j _ => if j = k then .closing else .norm
  | .rmFlush j => if j = k then .gone else .norm
  | .dtClose j => if j = k then .dt else .norm
  | _ => .norm

/-- The cache is being stopped. -/
def stopping (p : Pend) : Bool :=
  match p with
  | .stop _ _ => true
  | .stopClose _ _ => true
  | .stopped => true
  | _ => false

/-- What holds of a place. -/
structure SOk (att fe li busy stp : Bool) (ph : Ph) (sl : Slot) : Prop where
  bit : sl.bit = sl.valid
  val : sl.added = true → sl.valid = true
  adv : sl.valid = true → stp = false → sl.added = true
  cnt : sl.counters = sl.added
  cut : sl.cutoff = sl.added
  opn : sl.opened = true → sl.added = true ∨ ph = .closing
  cls : ph = .closing → sl.added = false ∧ sl.opened = true
  bod : ph = .body → sl.added = true ∧ stp = false
  dtp : ph = .dt → sl.added = true ∧ sl.opened = true ∧ sl.front.typ = true
  gon : ph = .gone → sl.added = false ∧ sl.valid = false ∧ sl.opened = false
  volA : sl.added = true ∨ sl.opened = true → sl.hasVol = true ∧ sl.vol.typ = true ∧ sl.vol.priv = true
  volO : sl.vol.opened = sl.opened
  volN : sl.added = false → sl.opened = false → sl.vol.priv = false
  frA : sl.opened = true → fe = false → sl.front = ⟨true, true, true⟩
  frN : sl.opened = false → li = false → sl.front.priv = false ∧ sl.front.opened = false
  ioF : li = false → sl.io ≠ 0 → sl.front.opened = true
  iob : ph = .closing ∨ ph = .body → sl.io ≠ 0 → busy = true
  cln : stp = false → sl.cleaning = (att && sl.added)
  clS : stp = true → sl.cleaning = false
  dat : sl.data = true → sl.valid = false ∨ ph = .body → busy = true ∨ li = true
  dat2 : sl.data = true → att = true

/-- 1 for true. -/
def b2i (b : Bool) : Int := if b then 1 else 0

/-- Number of valid places. -/
def nValid (l : List Slot) : Int := (l.countP (fun sl => sl.valid) : Nat)

/-- Number of inactive cores. -/
def nInact (l : List Slot) : Int := (l.countP (fun sl => sl.added && !sl.opened) : Nat)

/-- Number of added cores. -/
def nAdded (l : List Slot) : Int := (l.countP (fun sl => sl.added) : Nat)

/-- What holds of the stop. -/
def StopOk (l : List Slot) (p : Pend) : Prop :=
  match p with
  | .stop j no => (∀ (k : Nat) (sl : Slot), l[k]? = some sl → k < j → sl.added = false) ∧ nAdded l = no
  | .stopClose j no => (∀ (k : Nat) (sl : Slot), l[k]? = some sl → k ≤ j → sl.added = false) ∧
      nAdded l + 1 = no
  | .stopped => nAdded l = 0
  | _ => True

/-- Whether the superblock may lag behind: a removed core is not written yet, or the cache stops. -/
def lag (p : Pend) : Bool :=
  match p with
  | .rmClose _ => true
  | .rmFlush _ => true
  | p => stopping p

/-- What holds of a cache. -/
structure G (s : St) : Prop where
  slots : ∀ (k : Nat) (sl : Slot), s.slots[k]? = some sl →
    SOk s.attached s.fe s.li s.busy (stopping s.pend) (phase s.pend k) sl
  count : s.count = nValid s.slots
  inact : s.inactive = nInact s.slots
  inc : s.incomplete = decide (s.inactive ≠ 0)
  names : ∀ (a b : Nat) (x y : Slot), s.slots[a]? = some x → s.slots[b]? = some y → x.added = true →
    y.added = true → x.name = y.name → a = b
  uuids : ∀ (a b : Nat) (x y : Slot), s.slots[a]? = some x → s.slots[b]? = some y → x.valid = true →
    y.valid = true → x.uuid = y.uuid → a = b
  crash : s.crash = true → s.fe = true
  leaked : s.leaked ≠ 0 → s.li = true
  uaf : s.uaf = true → s.busy = true ∨ s.li = true
  sb : s.attached = true → s.stale = false → lag s.pend = false → s.sb = image s.slots
  stop : StopOk s.slots s.pend
  nfail : s.pend ≠ .failed

theorem count_set (l : List Slot) (p : Slot → Bool) (k : Nat) (x y : Slot) (h : l[k]? = some x) :
    (((l.set k y).countP p : Nat) : Int) = (l.countP p : Nat) + b2i (p y) - b2i (p x) := by
  have := Verif.countP_set p l k y x h
  unfold b2i
  cases h1 : p x <;> cases h2 : p y <;> rw [h1, h2] at this <;> simp at this ⊢ <;> omega

theorem nValid_set (l : List Slot) (k : Nat) (x y : Slot) (h : l[k]? = some x) :
    nValid (l.set k y) = nValid l + b2i y.valid - b2i x.valid := count_set l _ k x y h

theorem nInact_set (l : List Slot) (k : Nat) (x y : Slot) (h : l[k]? = some x) :
    nInact (l.set k y) = nInact l + b2i (y.added && !y.opened) - b2i (x.added && !x.opened) :=
  count_set l _ k x y h

theorem nAdded_set (l : List Slot) (k : Nat) (x y : Slot) (h : l[k]? = some x) :
    nAdded (l.set k y) = nAdded l + b2i y.added - b2i x.added := count_set l _ k x y h

theorem get_set {l : List Slot} {k j : Nat} {x y z : Slot} (h : l[k]? = some x)
    (hj : (l.set k y)[j]? = some z) : (j = k ∧ z = y) ∨ (j ≠ k ∧ l[j]? = some z) := by
  rw [List.getElem?_set] at hj
  by_cases e : k = j
  · subst e
    have hk : k < l.length := by
      rcases Nat.lt_or_ge k l.length with h1 | h1
      · exact h1
      · rw [List.getElem?_eq_none h1] at h; cases h
    simp [hk] at hj
    exact Or.inl ⟨rfl, hj.symm⟩
  · rw [if_neg e] at hj
    exact Or.inr ⟨fun h => e h.symm, hj⟩

/-- A place stays well when what happened so far grows. -/
theorem SOk.mono {att fe li busy stp : Bool} {ph : Ph} {sl : Slot} {fe' li' busy' : Bool}
    (h : SOk att fe li busy stp ph sl) (h1 : fe = true → fe' = true) (h2 : li = true → li' = true)
    (h3 : busy = true → busy' = true) : SOk att fe' li' busy' stp ph sl := by
  refine ⟨h.bit, h.val, h.adv, h.cnt, h.cut, h.opn, h.cls, h.bod, h.dtp, h.gon, h.volA, h.volO, h.volN,
    ?_, ?_, ?_, ?_, h.cln, h.clS, ?_, h.dat2⟩
  · intro a b; exact h.frA a (by cases fe <;> simp_all)
  · intro a b; exact h.frN a (by cases li <;> simp_all)
  · intro a b; exact h.ioF (by cases li <;> simp_all) b
  · intro a b; exact h3 (h.iob a b)
  · intro a b
    rcases h.dat a b with c | c
    · exact Or.inl (h3 c)
    · exact Or.inr (h2 c)

/-- One place changes. -/
theorem G.upd {s s' : St} {k : Nat} {x y : Slot} (g : G s) (hg : s.slots[k]? = some x)
    (hs : s'.slots = s.slots.set k y)
    (hy : SOk s'.attached s'.fe s'.li s'.busy (stopping s'.pend) (phase s'.pend k) y)
    (ha : s'.attached = s.attached) (hst : stopping s'.pend = stopping s.pend)
    (hph : ∀ j, j ≠ k → phase s'.pend j = phase s.pend j)
    (h1 : s.fe = true → s'.fe = true) (h2 : s.li = true → s'.li = true)
    (h3 : s.busy = true → s'.busy = true)
    (hc : s'.count = s.count + b2i y.valid - b2i x.valid)
    (hi : s'.inactive = s.inactive + b2i (y.added && !y.opened) - b2i (x.added && !x.opened))
    (hinc : s'.incomplete = decide (s'.inactive ≠ 0))
    (hn : y.added = true → ∀ (j : Nat) (z : Slot), j ≠ k → s.slots[j]? = some z → z.added = true →
      z.name ≠ y.name)
    (hu : y.valid = true → ∀ (j : Nat) (z : Slot), j ≠ k → s.slots[j]? = some z → z.valid = true →
      z.uuid ≠ y.uuid)
    (hcr : s'.crash = true → s'.fe = true) (hl : s'.leaked ≠ 0 → s'.li = true)
    (huf : s'.uaf = true → s'.busy = true ∨ s'.li = true)
    (hsb : s'.attached = true → s'.stale = false → lag s'.pend = false → s'.sb = image s'.slots)
    (hstop : StopOk s'.slots s'.pend) (hnf : s'.pend ≠ .failed) : G s' := by
  refine ⟨?_, ?_, ?_, hinc, ?_, ?_, hcr, hl, huf, hsb, hstop, hnf⟩
  · intro j z hz
    rw [hs] at hz
    rcases get_set hg hz with ⟨e, e'⟩ | ⟨e, hz'⟩
    · subst e; subst e'; exact hy
    · rw [ha, hst, hph j e]
      exact (g.slots j z hz').mono h1 h2 h3
  · rw [hc, hs, nValid_set _ _ _ _ hg, g.count]
  · rw [hi, hs, nInact_set _ _ _ _ hg, g.inact]
  · intro a b p q hp hq pa qa e
    rw [hs] at hp hq
    rcases get_set hg hp with ⟨e1, e1'⟩ | ⟨e1, hp'⟩ <;> rcases get_set hg hq with ⟨e2, e2'⟩ | ⟨e2, hq'⟩
    · rw [e1, e2]
    · subst e1'; exact absurd e.symm (hn pa b q e2 hq' qa)
    · subst e2'; exact absurd e (hn qa a p e1 hp' pa)
    · exact g.names a b p q hp' hq' pa qa e
  · intro a b p q hp hq pa qa e
    rw [hs] at hp hq
    rcases get_set hg hp with ⟨e1, e1'⟩ | ⟨e1, hp'⟩ <;> rcases get_set hg hq with ⟨e2, e2'⟩ | ⟨e2, hq'⟩
    · rw [e1, e2]
    · subst e1'; exact absurd e.symm (hu pa b q e2 hq' qa)
    · subst e2'; exact absurd e (hu qa a p e1 hp' pa)
    · exact g.uuids a b p q hp' hq' pa qa e

/-- Other places keep their names. -/
theorem G.keepName {s : St} {k : Nat} {x y : Slot} (g : G s) (hg : s.slots[k]? = some x)
    (h : y.added = true → x.added = true) (e : y.name = x.name) : y.added = true →
    ∀ (j : Nat) (z : Slot), j ≠ k → s.slots[j]? = some z → z.added = true → z.name ≠ y.name := by
  intro ya j z hj hz za hzn
  exact hj (g.names j k z x hz hg za (h ya) (hzn.trans e))

/-- Other places keep their uuids. -/
theorem G.keepUuid {s : St} {k : Nat} {x y : Slot} (g : G s) (hg : s.slots[k]? = some x)
    (h : y.valid = true → x.valid = true) (e : y.uuid = x.uuid) : y.valid = true →
    ∀ (j : Nat) (z : Slot), j ≠ k → s.slots[j]? = some z → z.valid = true → z.uuid ≠ y.uuid := by
  intro ya j z hj hz za hzn
  exact hj (g.uuids j k z x hz hg za (h ya) (hzn.trans e))

theorem image_set (l : List Slot) (k : Nat) (x y : Slot) (hg : l[k]? = some x) (e : y.meta = x.meta) :
    image (l.set k y) = image l := by
  unfold image
  rw [List.map_set, e]
  apply List.ext_getElem?
  intro j
  rw [List.getElem?_set]
  by_cases h : k = j
  · subst h
    simp [hg]
    rcases Nat.lt_or_ge k l.length with h1 | h1
    · exact h1
    · rw [List.getElem?_eq_none h1] at hg; cases hg
  · rw [if_neg h]

/-- The stop does not see a change that leaves `added`. -/
theorem StopOk.set {l : List Slot} {p : Pend} {k : Nat} {x y : Slot} (h : StopOk l p) (hg : l[k]? = some x)
    (e : y.added = x.added) : StopOk (l.set k y) p := by
  have hn : nAdded (l.set k y) = nAdded l := by rw [nAdded_set _ _ _ _ hg, e]; omega
  unfold StopOk at h ⊢
  cases p with
  | stop j no =>
    refine ⟨?_, by rw [hn]; exact h.2⟩
    intro i z hz hi
    rcases get_set hg hz with ⟨a, b⟩ | ⟨a, b⟩
    · subst a; subst b; rw [e]; exact h.1 i x hg hi
    · exact h.1 i z b hi
  | stopClose j no =>
    refine ⟨?_, by rw [hn]; exact h.2⟩
    intro i z hz hi
    rcases get_set hg hz with ⟨a, b⟩ | ⟨a, b⟩
    · subst a; subst b; rw [e]; exact h.1 i x hg hi
    · exact h.1 i z b hi
  | stopped => rw [hn]; exact h
  | _ => trivial

end Verif.CoreMngt
