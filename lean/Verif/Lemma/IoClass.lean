import Verif.Model.IoClass

namespace Verif.IoClass

/-- A class in use is sane. -/
structure Sane (i : Nat) (p : Part) : Prop where
  lt : i < classMax
  added : p.added = true
  max : p.max ≤ 100
  prio : prioValid p.prio = true
  mode : -1 ≤ p.mode ∧ p.mode ≤ 6
  name : p.valid = false → p.name = inactive
  zero : i = 0 → p.valid = true ∧ p.name = unclassified

/-- Invariant of the configuration. -/
structure J (s : St) : Prop where
  min : ∀ i, (s.part i).min = 0
  sane : ∀ i ∈ s.order, Sane i (s.part i)
  out : ∀ i, i ∉ s.order → (s.part i).valid = false
  nodup : s.order.Nodup
  count : s.validNo = (s.order.countP fun i => (s.part i).valid : Nat)

/-- `Bool` as a number. -/
def one (b : Bool) : Int := if b then 1 else 0

theorem countP_ne {f g : Nat → Bool} {l : List Nat} (h : ∀ i ∈ l, g i = f i) :
    l.countP g = l.countP f := by
  apply List.countP_congr
  intro x hx
  rw [h x hx]

theorem count_change {f g : Nat → Bool} {id : Nat} (h : ∀ i, i ≠ id → g i = f i) :
    ∀ l : List Nat, l.Nodup → id ∈ l →
      (l.countP g : Int) = (l.countP f : Int) + one (g id) - one (f id)
  | [], _, hm => absurd hm (by simp)
  | x :: l, hn, hm => by
    rw [List.nodup_cons] at hn
    rw [List.countP_cons, List.countP_cons]
    by_cases hx : x = id
    · subst hx
      have e : l.countP g = l.countP f :=
        countP_ne (fun i hi => h i (fun e => hn.1 (by rw [← e]; exact hi)))
      rw [e]
      cases g x <;> cases f x <;> simp [one] <;> omega
    · have hm' : id ∈ l := by
        rw [List.mem_cons] at hm
        rcases hm with h' | h'
        · exact absurd h'.symm hx
        · exact h'
      have ih := count_change h l hn.2 hm'
      rw [h x hx]
      cases f x <;> simp <;> omega

/-- Changing one class keeps the invariant. -/
theorem J.change {s : St} (hj : J s) {id : Nat} (hm : id ∈ s.order) {f : Part → Part}
    (hmin : (f (s.part id)).min = 0) (hs : Sane id (f (s.part id))) {n : Int}
    (hn : n = s.validNo + one (f (s.part id)).valid - one (s.part id).valid) :
    J { s.upd id f with validNo := n } := by
  refine ⟨?_, ?_, ?_, hj.nodup, ?_⟩
  · intro i
    show (if i = id then f (s.part id) else s.part i).min = 0
    split
    · exact hmin
    · exact hj.min i
  · intro i hi
    show Sane i (if i = id then f (s.part id) else s.part i)
    split
    · rename_i e; rw [e]; exact hs
    · exact hj.sane i hi
  · intro i hi
    show (if i = id then f (s.part id) else s.part i).valid = false
    rw [if_neg (fun e => hi (by rw [e]; exact hm))]
    exact hj.out i hi
  · show n = (s.order.countP (fun i => (if i = id then f (s.part id) else s.part i).valid) : Nat)
    rw [count_change (f := fun i => (s.part i).valid) (id := id)
      (fun i hi => by rw [if_neg hi]) s.order hj.nodup hm, if_pos rfl, ← hj.count]
    exact hn

theorem sumMin_zero {s : St} (h : ∀ i, (s.part i).min = 0) : sumMin s = 0 := by
  unfold sumMin
  have : (s.order.map fun i => if (s.part i).valid then (s.part i).min else 0) =
      s.order.map fun _ => 0 := by
    apply List.map_congr_left
    intro i _
    rw [h i]
    split <;> rfl
  rw [this]
  induction s.order with
  | nil => rfl
  | cons a l ih => rw [List.map_cons, List.sum_cons, ih]

theorem setSize_eq {s : St} (h : ∀ i, (s.part i).min = 0) {id max : Nat} (hm : max ≤ 100) :
    setSize s id 0 max = some (s.upd id fun p => { p with min := 0, max := max }) := by
  unfold setSize
  rw [if_neg (by omega), sumMin_zero h, if_neg (by omega), if_neg (by omega)]

theorem upd_upd (s : St) (id : Nat) (f g : Part → Part) :
    (s.upd id f).upd id g = s.upd id fun p => g (f p) := by
  unfold St.upd
  dsimp only
  rw [if_pos rfl]
  congr 1
  funext i
  by_cases h : i = id
  · rw [if_pos h, if_pos h]
  · rw [if_neg h, if_neg h, if_neg h]

theorem upd_same (s : St) (id : Nat) (f : Part → Part) : (s.upd id f).part id = f (s.part id) :=
  if_pos rfl

theorem upd_no (s : St) (n : Int) (id : Nat) (f : Part → Part) :
    ({ s with validNo := n } : St).upd id f = { s.upd id f with validNo := n } := rfl

theorem upd_congr {s : St} {id : Nat} {f g : Part → Part} (h : f (s.part id) = g (s.part id)) :
    s.upd id f = s.upd id g := by
  unfold St.upd; rw [h]

/-- What a named entry asks for. -/
def want (c : Cfg) (name : Name) : Part :=
  { name := name, min := 0, max := c.max, valid := true, added := true, prio := c.prio, mode := c.mode }

/-- A removed class. -/
def gone (p : Part) : Part :=
  { p with valid := false, prio := 255, min := 0, max := 100, name := inactive }

/-- A class as set up by `__init_partitions`, before it is marked as added. -/
def fresh (p : Part) (name : Name) (v : Bool) : Part :=
  { p with name := name, min := 0, max := 100, valid := v, prio := 255, mode := 6 }

/-- An entry that is refused. -/
def refused (c : Cfg) : Bool :=
  match c.name with
  | none => false
  | some name => decide (name = []) || (decide (c.id = 0) && decide (name ≠ unclassified))

theorem validate_spec {c : Cfg} (h : validate c = true) : c.id < classMax ∧
    ∀ name, c.name = some name → (-1 ≤ c.mode ∧ c.mode ≤ 6) ∧ nameValid name = true ∧
      prioValid c.prio = true ∧ c.max ≤ 100 := by
  unfold validate at h
  split at h
  · cases h
  · rename_i hlt
    refine ⟨by omega, ?_⟩
    intro name hname
    rw [hname] at h
    simp only [Bool.and_eq_true, decide_eq_true_eq] at h
    exact ⟨h.1.1.1, h.1.1.2, h.1.2, h.2⟩

theorem setValid_eq (s : St) (id : Nat) (h : (s.part id).valid = false) :
    setValid s id true = { s.upd id (fun p => { p with valid := true }) with
      validNo := s.validNo + 1 } := by
  unfold setValid
  rw [h, if_pos (by decide), if_pos rfl]

/-- The effect of one edit. -/
theorem edit_spec {s : St} (hj : J s) (hfull : ∀ i, i < classMax → i ∈ s.order) {c : Cfg}
    (hv : validate c = true) :
    (refused c = true → edit s c = (s, false)) ∧
    (refused c = false → ∃ s', edit s c = (s', true) ∧ J s' ∧ s'.order = s.order ∧
      (∀ i, i ≠ c.id → s'.part i = s.part i) ∧
      (∀ name, c.name = some name → s'.part c.id = want c name) ∧
      (c.name = none → s'.part c.id = (if c.id = 0 ∨ (s.part c.id).valid = false then s.part c.id
        else gone (s.part c.id)))) := by
  obtain ⟨hlt, hcfg⟩ := validate_spec hv
  have hmem := hfull c.id hlt
  have hsane := hj.sane c.id hmem
  unfold refused edit
  cases hn : c.name with
  | none =>
    dsimp only
    refine ⟨fun h => (by cases h), fun _ => ?_⟩
    unfold remove
    by_cases h0 : c.id = 0
    · rw [if_pos h0]
      exact ⟨s, rfl, hj, rfl, fun _ _ => rfl, fun _ h => (by cases h),
        fun _ => by rw [if_pos (Or.inl h0)]⟩
    · rw [if_neg h0]
      by_cases hval : (s.part c.id).valid = false
      · rw [if_pos hval]
        exact ⟨s, rfl, hj, rfl, fun _ _ => rfl, fun _ h => (by cases h),
          fun _ => by rw [if_pos (Or.inr hval)]⟩
      · rw [if_neg hval]
        have hvt : (s.part c.id).valid = true := by simpa using hval
        have he : setValid s c.id false =
            { s.upd c.id gone with validNo := s.validNo - 1 } := by
          unfold setValid
          rw [hvt, if_pos (by decide), if_neg (by decide)]
          rfl
        rw [he]
        refine ⟨_, rfl, ?_, rfl, ?_, fun _ h => (by cases h), fun _ => ?_⟩
        · apply hj.change hmem rfl
          · exact ⟨hlt, hsane.added, Nat.le_refl _, (by decide : prioValid 255 = true), hsane.mode, fun _ => rfl,
              fun h => absurd h h0⟩
          · rw [hvt]; show s.validNo - 1 = s.validNo + 0 - 1; omega
        · intro i hi; exact if_neg hi
        · rw [if_neg (by rw [hvt]; simp [h0])]
          exact if_pos rfl
  | some name =>
    obtain ⟨hmode, _, hprio, hmax⟩ := hcfg name hn
    dsimp only
    have hwant : (c.id = 0 → name = unclassified) → Sane c.id (want c name) :=
      fun h => ⟨hlt, rfl, hmax, hprio, hmode, fun h => (by cases h), fun h0 => ⟨rfl, h h0⟩⟩
    -- what follows from the final state
    have fin : (c.id = 0 → name = unclassified) → ∀ (n : Int),
        n = s.validNo + 1 - one (s.part c.id).valid →
        ∃ s', (({ s.upd c.id (fun _ => want c name) with validNo := n } : St), true) = (s', true) ∧
          J s' ∧ s'.order = s.order ∧ (∀ i, i ≠ c.id → s'.part i = s.part i) ∧
          (∀ name_1, some name = some name_1 → s'.part c.id = want c name_1) ∧
          (some name = none → s'.part c.id =
            (if c.id = 0 ∨ (s.part c.id).valid = false then s.part c.id else gone (s.part c.id))) := by
      intro h0 n hn'
      refine ⟨_, rfl, hj.change hmem rfl (hwant h0) hn', rfl, ?_, ?_, fun h => (by cases h)⟩
      · intro i hi; exact if_neg hi
      · intro name' hname'
        cases hname'
        exact if_pos rfl
    unfold configure
    rw [if_neg (by rw [hsane.added]; decide)]
    by_cases he : name = []
    · rw [if_pos he]
      refine ⟨fun _ => rfl, fun h => ?_⟩
      rw [he] at h; simp at h
    · rw [if_neg he]
      by_cases h0 : c.id = 0
      · have hz := hsane.zero h0
        rw [h0] at hz
        rw [if_pos h0, hz.2]
        by_cases hnm : name ≠ unclassified
        · rw [if_pos hnm]
          refine ⟨fun _ => rfl, fun h => ?_⟩
          simp [h0, hnm] at h
        · rw [if_neg hnm, setSize_eq hj.min hmax]
          have hnm' : name = unclassified := Decidable.not_not.1 hnm
          refine ⟨fun h => ?_, fun _ => ?_⟩
          · simp [hnm, he] at h
          · dsimp only
            unfold setPrioMode
            rw [upd_upd, upd_congr (g := fun _ => want c name)]
            · have := fin (fun _ => hnm') s.validNo (by
                rw [h0, hz.1]; show s.validNo = s.validNo + 1 - 1; omega)
              rw [h0] at this
              rw [h0]
              exact this
            · unfold want
              rw [h0] at hsane
              have h1 := hsane.added
              simp only [hz.1, hz.2, hnm', h1]
      · rw [if_neg h0]
        have hmin' : ∀ i, ((s.upd c.id fun p => { p with name := name }).part i).min = 0 := by
          intro i
          show (if i = c.id then _ else s.part i : Part).min = 0
          split
          · exact hj.min _
          · exact hj.min i
        dsimp only
        rw [setSize_eq hmin' hmax]
        refine ⟨fun h => ?_, fun _ => ?_⟩
        · simp [h0, he] at h
        · dsimp only
          rw [upd_upd]
          have hadd := hsane.added
          by_cases hval : (s.part c.id).valid = true
          · rw [if_pos (by rw [upd_same]; exact hval)]
            unfold setPrioMode
            rw [upd_upd, upd_congr (g := fun _ => want c name)]
            · exact fin (fun h => absurd h h0) s.validNo (by
                rw [hval]; show s.validNo = s.validNo + 1 - 1; omega)
            · unfold want
              dsimp only
              rw [hval, hadd]
          · have hvf : (s.part c.id).valid = false := by simpa using hval
            rw [if_neg (by rw [upd_same]; exact hval), setValid_eq _ _ (by rw [upd_same]; exact hvf)]
            unfold setPrioMode
            rw [upd_no, upd_upd, upd_upd, upd_congr (g := fun _ => want c name)]
            · exact fin (fun h => absurd h h0) (s.validNo + 1) (by
                rw [hvf]; show s.validNo + 1 = s.validNo + 1 - 0; omega)
            · unfold want
              dsimp only
              rw [hadd]

/-- The effect of the loop of edits. -/
theorem editAll_spec : ∀ (cs : List Cfg) (s : St), J s → (∀ i, i < classMax → i ∈ s.order) →
    (∀ c ∈ cs, validate c = true) →
    J (editAll s cs).1 ∧ (editAll s cs).1.order = s.order ∧
      ((editAll s cs).2 = true ↔ ∀ c ∈ cs, refused c = false) ∧
      (∀ i, (∀ c ∈ cs, c.id ≠ i) → (editAll s cs).1.part i = s.part i)
  | [], s, hj, _, _ => ⟨hj, rfl, ⟨fun _ c h => absurd h (by simp), fun _ => rfl⟩, fun _ _ => rfl⟩
  | c :: cs, s, hj, hfull, hv => by
    obtain ⟨e1, e2⟩ := edit_spec hj hfull (hv c List.mem_cons_self)
    unfold editAll
    by_cases hr : refused c = true
    · rw [e1 hr]
      refine ⟨hj, rfl, ?_, fun _ _ => rfl⟩
      constructor
      · intro h; cases h
      · intro h; rw [h c List.mem_cons_self] at hr; cases hr
    · have hr' : refused c = false := by simpa using hr
      obtain ⟨s', a1, a2, a3, a4, _, _⟩ := e2 hr'
      rw [a1]
      dsimp only
      obtain ⟨b1, b2, b3, b4⟩ := editAll_spec cs s' a2 (by rw [a3]; exact hfull)
        (fun c' hc' => hv c' (List.mem_cons_of_mem _ hc'))
      refine ⟨b1, by rw [b2, a3], ?_, ?_⟩
      · rw [b3]
        constructor
        · intro h x hx
          rw [List.mem_cons] at hx
          rcases hx with rfl | hx
          · exact hr'
          · exact h x hx
        · intro h x hx; exact h x (List.mem_cons_of_mem _ hx)
      · intro i hi
        rw [b4 i (fun c' hc' => hi c' (List.mem_cons_of_mem _ hc')),
          a4 i (fun e => hi c List.mem_cons_self e.symm)]

/-- Reordering keeps the invariant. -/
theorem J.reorder {s : St} (hj : J s) {l : List Nat} (hp : l.Perm s.order) :
    J { s with order := l } := by
  refine ⟨hj.min, ?_, ?_, hp.nodup_iff.2 hj.nodup, ?_⟩
  · intro i hi; exact hj.sane i (hp.mem_iff.1 hi)
  · intro i hi; exact hj.out i (fun h => hi (hp.mem_iff.2 h))
  · show s.validNo = _
    rw [hj.count]
    congr 1
    exact (hp.countP_eq _).symm

theorem addPart_spec {sort : (Nat → Part) → List Nat → List Nat}
    (hsort : ∀ p l, (sort p l).Perm l) {s : St} (hj : J s) {id : Nat} (hlt : id < classMax)
    (hn : id ∉ s.order) {name : Name} (hname : name.length < nameMax) {v : Bool}
    (h0 : id = 0 → v = true ∧ name = unclassified) (hinv : v = false → name = inactive) :
    ∃ s', addPart sort s id name 0 100 255 v = some s' ∧ J s' ∧ s'.order.Perm (id :: s.order) := by
  unfold addPart
  have hval := hj.out id hn
  rw [if_neg (by omega), if_neg (by rw [hval]; decide), if_neg (by omega), if_neg (by omega),
    if_neg (by omega), if_neg hn]
  have hset : setValid (s.upd id fun p =>
        { p with name := name, min := 0, max := 100, prio := 255, mode := 6 }) id v =
      { s.upd id (fun p => fresh p name v) with validNo := s.validNo + one v } := by
    unfold setValid
    rw [upd_same]
    dsimp only
    rw [hval]
    cases v
    · rw [if_neg (by decide)]
      unfold one
      rw [if_neg (by decide), Int.add_zero]
      have e : s.upd id (fun p =>
            { p with name := name, min := 0, max := 100, prio := 255, mode := 6 }) =
          s.upd id (fun p => fresh p name false) := by
        apply upd_congr
        unfold fresh
        rw [hval]
      rw [e]
      rfl
    · rw [if_pos (by decide), if_pos rfl, upd_upd]
      rfl
  dsimp only
  rw [hset]
  refine ⟨_, rfl, ?_, hsort _ _⟩
  generalize ht : St.upd _ _ _ = t
  have hpart : ∀ i, t.part i =
      if i = id then { fresh (s.part id) name v with added := true } else s.part i := by
    intro i
    rw [← ht]
    unfold St.upd
    dsimp only
    by_cases h : i = id
    · rw [if_pos h, if_pos h, if_pos rfl]
    · rw [if_neg h, if_neg h, if_neg h]
  have hp : t.order.Perm (id :: s.order) := by rw [← ht]; exact hsort _ _
  have hno : t.validNo = s.validNo + one v := by rw [← ht]; rfl
  constructor
  · intro i
    rw [hpart]
    by_cases h : i = id
    · rw [if_pos h]; rfl
    · rw [if_neg h]; exact hj.min i
  · intro i hi
    have hi' : i ∈ id :: s.order := hp.mem_iff.1 hi
    rw [hpart]
    by_cases h : i = id
    · rw [if_pos h]
      subst h
      exact ⟨hlt, rfl, Nat.le_refl _, (by decide : prioValid 255 = true),
        (by decide : (-1 : Int) ≤ 6 ∧ (6 : Int) ≤ 6), hinv, h0⟩
    · rw [if_neg h]
      rw [List.mem_cons] at hi'
      rcases hi' with h' | h'
      · exact absurd h' h
      · exact hj.sane i h'
  · intro i hi
    have hi' : i ∉ id :: s.order := fun h => hi (hp.mem_iff.2 h)
    rw [List.mem_cons] at hi'
    have h1 : i ≠ id := fun e => hi' (Or.inl e)
    rw [hpart, if_neg h1]
    exact hj.out i (fun h => hi' (Or.inr h))
  · exact hp.nodup_iff.2 (List.nodup_cons.2 ⟨hn, hj.nodup⟩)
  · simp only [hpart]
    rw [hno, hp.countP_eq, List.countP_cons,
      countP_ne (f := fun i => (s.part i).valid) (l := s.order), hj.count, if_pos rfl]
    · unfold one fresh
      cases v <;> simp
    · intro i hi
      have h1 : i ≠ id := fun e => hn (by rw [← e]; exact hi)
      rw [if_neg h1]

end Verif.IoClass
