import Verif.Lemma.AlruPop

/-! The invariant of the ALRU lists. -/

namespace Verif.Alru

open Verif.Collision (upd upd_same upd_ne Chain)

/-- The class on whose list a line is, by phase, dirty bit and class. -/
def listedOf : Phase → Bool → Nat → Option Nat
  | .idle, d, p => if d then some p else none
  | .hot was, _, p => if was then some p else none
  | .clean, _, p => some p
  | .sparse, _, _ => none
  | .move _, _, _ => none

/-- The class on whose list a line is. -/
def listed (st : State) (c : Nat) : Option Nat := listedOf (st.phase c) (st.l.dirty c) (st.l.part c)

/-- The lines of `R` on the list of class `p`. -/
def lof (R : List Nat) (f : Nat → Option Nat) (p : Nat) : List Nat := R.filter fun c => f c == some p

/-- What a phase says about the line. -/
def Shape (parts : Nat) (l : Lines) (c : Nat) : Phase → Prop
  | .idle => l.dirty c = true → l.mapped c = true
  | .hot _ => l.mapped c = true ∧ l.dirty c = true
  | .clean => l.mapped c = true ∧ l.dirty c = false
  | .sparse => l.mapped c = true
  | .move q => l.mapped c = true ∧ l.dirty c = true ∧ q < parts

structure Inv (parts : Nat) (st : State) : Prop where
  rep : Rep st.a (lof st.recent (listed st))
  rnodup : st.recent.Nodup
  rlt : ∀ c ∈ st.recent, c < st.a.n
  rmem : ∀ c, c < st.a.n → listed st c ≠ none → c ∈ st.recent
  free : ∀ c, c < st.a.n → st.l.mapped c = true → listed st c = none →
    st.a.next c = st.a.n ∧ st.a.prev c = st.a.n
  shape : ∀ c, c < st.a.n → Shape parts st.l c (st.phase c)
  part : ∀ c, c < st.a.n → st.l.mapped c = true → st.l.part c < parts
  lines : st.a.n < 2 ^ 32

theorem mem_lof {R : List Nat} {f : Nat → Option Nat} {p c : Nat} :
    c ∈ lof R f p ↔ c ∈ R ∧ f c = some p := by
  simp [lof, List.mem_filter]

theorem Inv.mem {parts : Nat} {st : State} (I : Inv parts st) {p c : Nat} :
    c ∈ lof st.recent (listed st) p ↔ c < st.a.n ∧ listed st c = some p := by
  rw [mem_lof]
  constructor
  · exact fun h => ⟨I.rlt c h.1, h.2⟩
  · exact fun h => ⟨I.rmem c h.1 (by rw [h.2]; simp), h.2⟩

theorem lof_touch {R : List Nat} {f : Nat → Option Nat} {c p : Nat} (hR : R.Nodup)
    (h : f c = none ∨ f c = some p) :
    lof (c :: R.erase c) (upd f c (some p)) = upd (lof R f) p (c :: (lof R f p).erase c) := by
  funext q
  have hf : ∀ q, (R.erase c).filter (fun d => upd f c (some p) d == some q) =
      (lof R f q).erase c := by
    intro q
    rw [hR.erase_eq_filter, List.Nodup.erase_eq_filter (l := lof R f q) (hR.filter _)]
    unfold lof
    rw [List.filter_filter, List.filter_filter]
    refine List.filter_congr fun d _ => ?_
    by_cases hd : d = c
    · subst hd; rw [upd_same]; simp
    · rw [upd_ne hd, Bool.and_comm]
  by_cases hq : q = p
  · subst hq
    rw [upd_same]
    show List.filter _ (c :: R.erase c) = _
    rw [List.filter_cons, if_pos (by rw [upd_same]; simp), hf]
  · rw [upd_ne hq]
    show List.filter _ (c :: R.erase c) = _
    rw [List.filter_cons, if_neg (by rw [upd_same]; simp; exact fun e => hq e.symm), hf]
    refine List.erase_of_not_mem fun hm => ?_
    have := (mem_lof.1 hm).2
    rcases h with h | h
    · rw [h] at this; simp at this
    · rw [h] at this; simp at this; exact hq this.symm

theorem lof_drop {R : List Nat} {f : Nat → Option Nat} {c p : Nat} (hR : R.Nodup)
    (h : f c = some p) :
    lof R (upd f c none) = upd (lof R f) p ((lof R f p).erase c) := by
  have hf : ∀ q, lof R (upd f c none) q = (lof R f q).erase c := by
    intro q
    rw [List.Nodup.erase_eq_filter (l := lof R f q) (hR.filter _)]
    unfold lof
    rw [List.filter_filter]
    refine List.filter_congr fun d _ => ?_
    by_cases hd : d = c
    · subst hd; rw [upd_same]; simp
    · rw [upd_ne hd]; simp [hd]
  funext q
  rw [hf]
  by_cases hq : q = p
  · subst hq; rw [upd_same]
  · rw [upd_ne hq]
    refine List.erase_of_not_mem fun hm => ?_
    have := (mem_lof.1 hm).2
    rw [h] at this; simp at this; exact hq this.symm

/-- `listed` changes at most at the line of the operation. -/
theorem listed_upd {st st' : State} {c : Nat} {v : Option Nat}
    (h : ∀ d, d ≠ c → st'.phase d = st.phase d ∧ st'.l.dirty d = st.l.dirty d ∧
      st'.l.part d = st.l.part d)
    (hc : listed st' c = v) : listed st' = upd (listed st) c v := by
  funext d
  by_cases hd : d = c
  · subst hd; rw [upd_same]; exact hc
  · rw [upd_ne hd]
    unfold listed
    rw [(h d hd).1, (h d hd).2.1, (h d hd).2.2]

theorem upd_self {α : Type} {f : Nat → α} {c : Nat} {v : α} (h : f c = v) : upd f c v = f := by
  funext d
  by_cases hd : d = c
  · subst hd; rw [upd_same, h]
  · rw [upd_ne hd]

/-- An operation on the line `c` alone that leaves the lists as they are. -/
theorem Inv.keep {parts : Nat} {st st' : State} (I : Inv parts st) {c : Nat}
    (ha : st'.a = st.a) (hr : st'.recent = st.recent)
    (h : ∀ d, d ≠ c → st'.phase d = st.phase d ∧ st'.l.dirty d = st.l.dirty d ∧
      st'.l.part d = st.l.part d ∧ st'.l.mapped d = st.l.mapped d)
    (hl : listed st' c = listed st c)
    (hm : st'.l.mapped c = true → st.l.mapped c = true)
    (hs : Shape parts st'.l c (st'.phase c))
    (hp : st'.l.mapped c = true → st'.l.part c < parts) : Inv parts st' := by
  have hL : listed st' = listed st := by
    rw [listed_upd (fun d hd => ⟨(h d hd).1, (h d hd).2.1, (h d hd).2.2.1⟩) hl, upd_self rfl]
  refine ⟨by rw [ha, hr, hL]; exact I.rep, hr ▸ I.rnodup, by rw [hr, ha]; exact I.rlt,
    by rw [hr, ha, hL]; exact I.rmem, ?_, ?_, ?_, ha ▸ I.lines⟩
  · intro d hd hdm hdl
    rw [ha] at hd ⊢
    rw [hL] at hdl
    by_cases hdc : d = c
    · subst hdc; exact I.free d hd (hm hdm) hdl
    · exact I.free d hd ((h d hdc).2.2.2 ▸ hdm) hdl
  · intro d hd
    rw [ha] at hd
    by_cases hdc : d = c
    · subst hdc; exact hs
    · have g := I.shape d hd
      rw [(h d hdc).1]
      revert g
      cases st.phase d <;> simp only [Shape, (h d hdc).2.1, (h d hdc).2.2.2] <;> exact id
  · intro d hd hdm
    rw [ha] at hd
    by_cases hdc : d = c
    · subst hdc; exact hp hdm
    · rw [(h d hdc).2.2.1]; exact I.part d hd ((h d hdc).2.2.2 ▸ hdm)

/-- An operation that takes line `c` out of its list. -/
theorem Inv.drop {parts : Nat} {st : State} (I : Inv parts st) {c : Nat} {ph : Phase}
    (hc : c < st.a.n) (hl : listed st c = some (st.l.part c))
    (hl' : listedOf ph (st.l.dirty c) (st.l.part c) = none)
    (hs : Shape parts st.l c ph) :
    ∃ a', remove st.a (st.l.part c) c = some a' ∧
      Inv parts { st with a := a', phase := upd st.phase c ph } ∧ a'.n = st.a.n ∧ a'.ts = st.a.ts := by
  obtain ⟨a', e, r, en, ets, ex, ev, ef⟩ := remove_rep I.rep (I.mem.2 ⟨hc, hl⟩)
  refine ⟨a', e, ?_, en, ets⟩
  have hL : listed { st with a := a', phase := upd st.phase c ph } = upd (listed st) c none := by
    refine listed_upd (fun d hd => ⟨upd_ne hd, rfl, rfl⟩) ?_
    unfold listed
    show listedOf (upd st.phase c ph c) _ _ = none
    rw [upd_same]; exact hl'
  refine ⟨?_, I.rnodup, ?_, ?_, ?_, ?_, ?_, ?_⟩
  · rw [hL]
    show Rep a' (lof st.recent (upd (listed st) c none))
    rw [lof_drop I.rnodup hl]; exact r
  · intro d hd; show d < a'.n; rw [en]; exact I.rlt d hd
  · intro d hd hdl
    have hd' : d < st.a.n := by rw [← en]; exact hd
    rw [hL] at hdl
    refine I.rmem d hd' ?_
    by_cases hdc : d = c
    · subst hdc; rw [upd_same] at hdl; exact absurd rfl hdl
    · rwa [upd_ne hdc] at hdl
  · intro d hd hdm hdl
    have hd' : d < st.a.n := by rw [← en]; exact hd
    show a'.next d = a'.n ∧ a'.prev d = a'.n
    rw [en]
    by_cases hdc : d = c
    · subst hdc; exact ⟨ex, ev⟩
    · rw [hL, upd_ne hdc] at hdl
      have := ef d (fun hm => by have := (I.mem.1 hm).2; rw [hdl] at this; simp at this)
      have g := I.free d hd' hdm hdl
      exact ⟨this.1.trans g.1, this.2.trans g.2⟩
  · intro d hd
    have hd' : d < st.a.n := by rw [← en]; exact hd
    show Shape parts st.l d (upd st.phase c ph d)
    by_cases hdc : d = c
    · subst hdc; rw [upd_same]; exact hs
    · rw [upd_ne hdc]; exact I.shape d hd'
  · intro d hd hdm
    exact I.part d (by rw [← en]; exact hd) hdm
  · show a'.n < _
    rw [en]; exact I.lines

/-- An operation that touches line `c`. -/
theorem Inv.touch {parts : Nat} {st : State} (I : Inv parts st) {c now : Nat}
    (hc : c < st.a.n) (hl : listed st c = none ∨ listed st c = some (st.l.part c))
    (hm : st.l.mapped c = true) (hd : st.l.dirty c = true) :
    ∃ a', setHot st.a (st.l.part c) c now = some a' ∧
      Inv parts { st with
        a := a'
        phase := upd st.phase c .idle
        recent := c :: st.recent.erase c } ∧ a'.n = st.a.n ∧
      a'.ts = upd st.a.ts c now := by
  obtain ⟨a', e, r, en, ets, ef⟩ := setHot_rep I.rep (p := st.l.part c) (c := c) now hc (by
    rcases hl with hl | hl
    · right
      refine ⟨fun q hq => ?_, I.free c hc hm hl⟩
      have := (I.mem.1 hq).2
      rw [hl] at this; simp at this
    · left; exact I.mem.2 ⟨hc, hl⟩)
  refine ⟨a', e, ?_, en, ets⟩
  have hL : listed (State.mk a' st.l (upd st.phase c .idle) (c :: st.recent.erase c)) =
      upd (listed st) c (some (st.l.part c)) := by
    refine listed_upd (fun d hd => ⟨upd_ne hd, rfl, rfl⟩) ?_
    unfold listed
    show listedOf (upd st.phase c .idle c) _ _ = _
    rw [upd_same]
    simp only [listedOf, hd, if_true]
  refine ⟨?_, ?_, ?_, ?_, ?_, ?_, ?_, ?_⟩
  · rw [hL]
    show Rep a' (lof (c :: st.recent.erase c) (upd (listed st) c (some (st.l.part c))))
    rw [lof_touch I.rnodup hl]; exact r
  · exact List.nodup_cons.2 ⟨List.Nodup.not_mem_erase I.rnodup, I.rnodup.erase c⟩
  · intro d hd; show d < a'.n; rw [en]
    rcases List.mem_cons.1 hd with rfl | hd
    · exact hc
    · exact I.rlt d (List.mem_of_mem_erase hd)
  · intro d hd' hdl
    have hd'' : d < st.a.n := by rw [← en]; exact hd'
    rw [hL] at hdl
    by_cases hdc : d = c
    · subst hdc; exact List.mem_cons_self
    · rw [upd_ne hdc] at hdl
      exact List.mem_cons_of_mem _ ((List.mem_erase_of_ne hdc).2 (I.rmem d hd'' hdl))
  · intro d hd' hdm hdl
    have hd'' : d < st.a.n := by rw [← en]; exact hd'
    show a'.next d = a'.n ∧ a'.prev d = a'.n
    rw [en]
    by_cases hdc : d = c
    · subst hdc; rw [hL, upd_same] at hdl; simp at hdl
    · rw [hL, upd_ne hdc] at hdl
      have := ef d hdc (fun hm => by have := (I.mem.1 hm).2; rw [hdl] at this; simp at this)
      have g := I.free d hd'' hdm hdl
      exact ⟨this.1.trans g.1, this.2.trans g.2⟩
  · intro d hd'
    have hd'' : d < st.a.n := by rw [← en]; exact hd'
    show Shape parts st.l d (upd st.phase c .idle d)
    by_cases hdc : d = c
    · subst hdc; rw [upd_same]; exact fun _ => hm
    · rw [upd_ne hdc]; exact I.shape d hd''
  · intro d hd' hdm
    exact I.part d (by rw [← en]; exact hd') hdm
  · show a'.n < _
    rw [en]; exact I.lines

/-- The policy is chosen: nothing need be known about the lists. -/
theorem inv_populate {parts : Nat} {st : State} (n32 : st.a.n < 2 ^ 32)
    (hidle : ∀ c, st.phase c = .idle)
    (hshape : ∀ c, c < st.a.n → Shape parts st.l c (st.phase c))
    (hpart : ∀ c, c < st.a.n → st.l.mapped c = true → st.l.part c < parts)
    {now next prev ts head tail size : Nat → Nat} {sched : List (Nat × Nat)}
    (hs : Sched st.a.n shardsCnt sched) :
    ∃ a', exec parts st (.populate now next prev ts head tail size sched) =
        some { st with a := a', recent := (List.range st.a.n).reverse } ∧
      Inv parts { st with a := a', recent := (List.range st.a.n).reverse } ∧ a'.n = st.a.n ∧
      ∀ c, c < st.a.n → st.l.dirty c = true → a'.ts c = now c := by
  obtain ⟨a', e, r, en, ets, ef⟩ := populate_rep (a := ⟨st.a.n, head, tail, size, next, prev, ts⟩)
    (l := st.l) (parts := parts) (now := now) n32 hpart hs
  have hmap : ∀ c, c < st.a.n → st.l.dirty c = true → st.l.mapped c = true := by
    intro c hc hd
    have := hshape c hc
    rw [hidle c] at this
    exact this hd
  have hlist : ∀ s' : State, s'.phase = st.phase → s'.l = st.l → ∀ c, listed s' c =
      if st.l.dirty c then some (st.l.part c) else none := by
    intro s' h1 h2 c
    unfold listed
    rw [h1, h2, hidle c]; rfl
  refine ⟨a', ?_, ?_, en, fun c hc hd => ets c hc (hmap c hc hd) hd⟩
  · show Option.map _ (populate _ _ _ _ _ _) = _
    rw [e]; rfl
  refine ⟨?_, ?_, ?_, ?_, ?_, ?_, ?_, ?_⟩
  · have : lof (List.range st.a.n).reverse (listed (State.mk a' st.l st.phase
        (List.range st.a.n).reverse)) = fun p => (List.range st.a.n).reverse.filter (want st.l p) := by
      funext p
      unfold lof
      refine List.filter_congr fun c hc => ?_
      rw [hlist (State.mk a' st.l st.phase (List.range st.a.n).reverse) rfl rfl]
      have hc' : c < st.a.n := by simpa using hc
      cases hd : st.l.dirty c with
      | false => simp [want, hd]
      | true => simp [want, hd, hmap c hc' hd]
    show Rep a' (lof _ _)
    rw [this]; exact r
  · exact List.nodup_reverse.2 List.nodup_range
  · intro c hc; show c < a'.n; rw [en]; simpa using hc
  · intro c hc _
    have hc' : c < st.a.n := by rw [← show a'.n = st.a.n from en]; exact hc
    show c ∈ (List.range st.a.n).reverse
    simpa using hc'
  · intro c hc hm hl
    have hc' : c < st.a.n := by rw [← show a'.n = st.a.n from en]; exact hc
    rw [hlist (State.mk a' st.l st.phase (List.range st.a.n).reverse) rfl rfl] at hl
    have hd : st.l.dirty c = false := by
      cases hd : st.l.dirty c
      · rfl
      · simp [hd] at hl
    have := ef c hc' hm hd
    show a'.next c = a'.n ∧ a'.prev c = a'.n
    rw [en]; exact this
  · intro c hc; exact hshape c (by rw [← show a'.n = st.a.n from en]; exact hc)
  · intro c hc; exact hpart c (by rw [← show a'.n = st.a.n from en]; exact hc)
  · show a'.n < _
    rw [en]; exact n32

/-- How an operation changes the order of the lines. -/
def orderStep (n : Nat) (R : List Nat) : Op → List Nat
  | .hot c _ => c :: R.erase c
  | .populate .. => (List.range n).reverse
  | _ => R

/-- The time of the last touch of `c` after an operation. -/
def timeStep (ts : Nat → Nat) (c : Nat) : Op → Nat
  | .hot d now => if c = d then now else ts c
  | .populate now .. => now c
  | _ => ts c

/-- Every operation, called as its callers do, succeeds and keeps the invariant. -/
theorem step_inv {parts : Nat} {st : State} (I : Inv parts st) {op : Op} (g : guard parts st op) :
    ∃ st', exec parts st op = some st' ∧ Inv parts st' ∧ st'.a.n = st.a.n ∧
      st'.recent = orderStep st.a.n st.recent op ∧
      ∀ c, c < st.a.n → listed st' c ≠ none → st'.a.ts c = timeStep st.a.ts c op := by
  cases op with
  | markDirty c =>
    obtain ⟨hc, hi, hm⟩ := g
    refine ⟨_, rfl, ?_, rfl, rfl, fun _ _ _ => rfl⟩
    refine I.keep (c := c) rfl rfl (fun d hd => ⟨upd_ne hd, upd_ne hd, rfl, rfl⟩) ?_ id ?_
      (fun _ => I.part c hc hm)
    · unfold listed
      show listedOf (upd st.phase c _ c) _ _ = _
      rw [upd_same, hi]
      rfl
    · show Shape parts _ c (upd st.phase c _ c)
      rw [upd_same]
      exact ⟨hm, upd_same _ _ _⟩
  | hot c now =>
    obtain ⟨hc, hg⟩ := g
    have hsh := I.shape c hc
    have hmd : st.l.mapped c = true ∧ st.l.dirty c = true ∧
        (listed st c = none ∨ listed st c = some (st.l.part c)) := by
      rcases hg with ⟨was, hp⟩ | ⟨hp, hm, hd⟩
      · rw [hp] at hsh
        refine ⟨hsh.1, hsh.2, ?_⟩
        unfold listed
        rw [hp]
        cases was
        · left; rfl
        · right; rfl
      · refine ⟨hm, hd, Or.inr ?_⟩
        unfold listed
        rw [hp, hd]; rfl
    obtain ⟨a', e, I', en, ets⟩ := I.touch (now := now) hc hmd.2.2 hmd.1 hmd.2.1
    refine ⟨_, ?_, I', en, rfl, ?_⟩
    · show Option.map _ (setHot _ _ _ _) = _
      rw [e]; rfl
    · intro d _ _
      show a'.ts d = if d = c then now else st.a.ts d
      rw [ets]; rfl
  | markClean c =>
    obtain ⟨hc, hi, hd⟩ := g
    have hm : st.l.mapped c = true := by
      have := I.shape c hc; rw [hi] at this; exact this hd
    refine ⟨_, rfl, ?_, rfl, rfl, fun _ _ _ => rfl⟩
    refine I.keep (c := c) rfl rfl (fun d hd => ⟨upd_ne hd, upd_ne hd, rfl, rfl⟩) ?_ id ?_
      (fun _ => I.part c hc hm)
    · unfold listed
      show listedOf (upd st.phase c _ c) _ _ = _
      rw [upd_same, hi, hd]
      rfl
    · show Shape parts _ c (upd st.phase c _ c)
      rw [upd_same]
      exact ⟨hm, upd_same _ _ _⟩
  | purge c =>
    obtain ⟨hc, hp⟩ := g
    have hsh := I.shape c hc
    rw [hp] at hsh
    obtain ⟨a', e, I', en, ets⟩ := I.drop (ph := .idle) hc (by unfold listed; rw [hp]; rfl)
      (by rw [hsh.2]; rfl) (fun _ => hsh.1)
    refine ⟨_, ?_, I', en, rfl, fun d _ _ => by show a'.ts d = _; rw [ets]; rfl⟩
    show Option.map _ (remove _ _ _) = _
    rw [e]; rfl
  | sparse c =>
    obtain ⟨hc, hp, hd⟩ := g
    have hsh := I.shape c hc
    rw [hp] at hsh
    obtain ⟨a', e, I', en, ets⟩ := I.drop (ph := .sparse) hc
      (by unfold listed; rw [hp, hd]; rfl) rfl (hsh hd)
    refine ⟨_, ?_, I', en, rfl, fun d _ _ => by show a'.ts d = _; rw [ets]; rfl⟩
    show Option.map _ (remove _ _ _) = _
    rw [e]; rfl
  | sparseEnd c =>
    obtain ⟨hc, hp⟩ := g
    refine ⟨_, rfl, ?_, rfl, rfl, fun _ _ _ => rfl⟩
    refine I.keep (c := c) rfl rfl (fun d hd => ⟨upd_ne hd, upd_ne hd, rfl, upd_ne hd⟩) ?_ ?_ ?_ ?_
    · unfold listed
      show listedOf (upd st.phase c _ c) (upd st.l.dirty c false c) _ = _
      rw [upd_same, upd_same, hp]
      rfl
    · intro h
      have : upd st.l.mapped c false c = true := h
      rw [upd_same] at this; simp at this
    · show Shape parts _ c (upd st.phase c _ c)
      rw [upd_same]
      intro h
      have : upd st.l.dirty c false c = true := h
      rw [upd_same] at this; simp at this
    · intro h
      have : upd st.l.mapped c false c = true := h
      rw [upd_same] at this; simp at this
  | repart c q =>
    obtain ⟨hc, hp, hm, hq⟩ := g
    cases hd : st.l.dirty c with
    | true =>
      obtain ⟨a', e, I', en, ets⟩ := I.drop (ph := .move q) hc
        (by unfold listed; rw [hp, hd]; rfl) rfl ⟨hm, hd, hq⟩
      refine ⟨_, ?_, I', en, rfl, fun d _ _ => by show a'.ts d = _; rw [ets]; rfl⟩
      simp only [exec, hd, if_true]
      rw [e]; rfl
    | false =>
      refine ⟨{ st with l := { st.l with part := upd st.l.part c q } }, by simp [exec, hd], ?_, rfl,
        rfl, fun _ _ _ => rfl⟩
      refine I.keep (c := c) rfl rfl (fun d hd => ⟨rfl, rfl, upd_ne hd, rfl⟩) ?_ id ?_ ?_
      · unfold listed
        show listedOf (st.phase c) (st.l.dirty c) _ = _
        rw [hp, hd]
        rfl
      · show Shape parts _ c (st.phase c)
        rw [hp]
        exact fun _ => hm
      · intro _
        show upd st.l.part c q c < parts
        rw [upd_same]; exact hq
  | move c =>
    obtain ⟨hc, q, hp⟩ := g
    have hsh := I.shape c hc
    rw [hp] at hsh
    refine ⟨State.mk st.a { st.l with part := upd st.l.part c q } (upd st.phase c (.hot false))
      st.recent, by simp only [exec, hp], ?_, rfl, rfl, fun _ _ _ => rfl⟩
    refine I.keep (c := c) rfl rfl (fun d hd => ⟨upd_ne hd, rfl, upd_ne hd, rfl⟩) ?_ id ?_ ?_
    · unfold listed
      show listedOf (upd st.phase c _ c) _ _ = _
      rw [upd_same, hp]
      rfl
    · show Shape parts _ c (upd st.phase c _ c)
      rw [upd_same]
      exact ⟨hsh.1, hsh.2.1⟩
    · intro _
      show upd st.l.part c q c < parts
      rw [upd_same]; exact hsh.2.2
  | map c p =>
    obtain ⟨hc, hi, hm, hp⟩ := g
    have hd : st.l.dirty c = false := by
      cases hd : st.l.dirty c
      · rfl
      · have := I.shape c hc; rw [hi] at this; rw [this hd] at hm; simp at hm
    have hl : listed st c = none := by unfold listed; rw [hi, hd]; rfl
    have hL : listed (State.mk (initBlock st.a c) ⟨upd st.l.mapped c true, st.l.dirty,
        upd st.l.part c p⟩ st.phase st.recent) = listed st := by
      refine (listed_upd (st := st) (c := c) (v := none)
        (fun d hd => ⟨by rfl, by rfl, by exact upd_ne hd⟩) ?_).trans
        (upd_self hl)
      unfold listed
      show listedOf (st.phase c) (st.l.dirty c) _ = none
      rw [hi, hd]; rfl
    have hnot : ∀ q, c ∉ lof st.recent (listed st) q := by
      intro q h
      have := (I.mem.1 h).2
      rw [hl] at this; simp at this
    refine ⟨_, rfl, ?_, rfl, rfl, ?_⟩
    · refine ⟨?_, I.rnodup, I.rlt, ?_, ?_, ?_, ?_, I.lines⟩
      · show Rep (initBlock st.a c) (lof st.recent _)
        rw [hL]
        refine ⟨fun q => ?_, I.rep.tail, I.rep.size, I.rep.nodup, I.rep.lt, I.rep.disj⟩
        refine Chain.frame (I.rep.chain q) fun d hdm => ?_
        have hdc : d ≠ c := fun e => hnot q (e ▸ hdm)
        exact ⟨upd_ne hdc, upd_ne hdc⟩
      · rw [hL]; exact I.rmem
      · intro d hd' hdm hdl
        rw [hL] at hdl
        by_cases hdc : d = c
        · subst hdc; exact ⟨upd_same _ _ _, upd_same _ _ _⟩
        · have hdm' : upd st.l.mapped c true d = true := hdm
          rw [upd_ne hdc] at hdm'
          have := I.free d hd' hdm' hdl
          exact ⟨(upd_ne hdc).trans this.1, (upd_ne hdc).trans this.2⟩
      · intro d hd'
        by_cases hdc : d = c
        · subst hdc
          show Shape parts _ d (st.phase d)
          rw [hi]
          exact fun _ => upd_same _ _ _
        · have g := I.shape d hd'
          show Shape parts _ d (st.phase d)
          revert g
          cases st.phase d <;> simp only [Shape, upd_ne hdc] <;> exact id
      · intro d hd' hdm
        show upd st.l.part c p d < parts
        by_cases hdc : d = c
        · subst hdc; rw [upd_same]; exact hp
        · have hdm' : upd st.l.mapped c true d = true := hdm
          rw [upd_ne hdc] at hdm' ⊢
          exact I.part d hd' hdm'
    · intro d _ hdl
      rw [hL] at hdl
      have hdc : d ≠ c := by intro e; subst e; exact hdl hl
      exact upd_ne hdc
  | unmap c =>
    obtain ⟨hc, hi, hd⟩ := g
    refine ⟨_, rfl, ?_, rfl, rfl, fun _ _ _ => rfl⟩
    refine I.keep (c := c) rfl rfl (fun d hd => ⟨rfl, rfl, rfl, upd_ne hd⟩) rfl ?_ ?_ ?_
    · intro h
      have : upd st.l.mapped c false c = true := h
      rw [upd_same] at this; simp at this
    · show Shape parts _ c (st.phase c)
      rw [hi]
      intro h
      rw [show st.l.dirty c = true from h] at hd; simp at hd
    · intro h
      have : upd st.l.mapped c false c = true := h
      rw [upd_same] at this; simp at this
  | populate now next prev ts head tail size sched =>
    obtain ⟨hidle, hs⟩ := g
    obtain ⟨a', e, I', en, ets⟩ := inv_populate (parts := parts) (now := now) (next := next)
      (prev := prev) (ts := ts) (head := head) (tail := tail) (size := size) I.lines hidle I.shape
      I.part hs
    refine ⟨_, e, I', en, rfl, ?_⟩
    intro c hc hl
    refine ets c hc ?_
    cases hd : st.l.dirty c
    · exfalso
      refine hl ?_
      unfold listed
      show listedOf (st.phase c) (st.l.dirty c) _ = none
      rw [hidle c, hd]; rfl
    · rfl

end Verif.Alru
