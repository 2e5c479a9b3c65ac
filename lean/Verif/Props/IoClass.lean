import Verif.Lemma.IoClass
import Verif.Lemma.Common

/-!
C38. I/O class configuration. Whatever sequence of calls is made, the configuration stays sane; a
successful call changes exactly the classes named in it, and to what was asked; a call that fails in
validation changes nothing. A call that fails later is not undone (`rollback_lost`), unless nothing
was edited before the failing entry.
-/

namespace Verif.IoClass

/-! ### Spec -/

/-- What sorting does to the list of classes: it keeps the same classes. -/
def Sorts (sort : (Nat → Part) → List Nat → List Nat) : Prop := ∀ p l, (sort p l).Perm l

/-- What the API calls a configuration of class `p` by entry `c`. -/
def effect (p : Part) (c : Cfg) : Part :=
  match c.name with
  | some name =>
    { name := name, min := 0, max := c.max, valid := true, added := true, prio := c.prio,
      mode := c.mode }
  | none =>
    if c.id = 0 ∨ p.valid = false then p
    else { p with valid := false, prio := 255, min := 0, max := 100, name := inactive }

/-- Entries that are refused after validation: an empty name, or another name for class 0. -/
def Refused (c : Cfg) : Prop :=
  ∃ name, c.name = some name ∧ (name = [] ∨ (c.id = 0 ∧ name ≠ unclassified))

/-- Entries that are accepted by validation. -/
def Valid (c : Cfg) : Prop :=
  c.id < 33 ∧ ∀ name, c.name = some name →
    (-1 ≤ c.mode ∧ c.mode ≤ 6) ∧ name.length < 1024 ∧
    (∀ x ∈ name, 32 ≤ x ∧ x ≤ 126 ∧ x ≠ 44 ∧ x ≠ 34) ∧
    (c.prio = -1 ∨ (0 ≤ c.prio ∧ c.prio ≤ 255)) ∧ c.max ≤ 100

/-- Configurations that can be reached: after `__init_partitions` of zeroed classes, any number of
configuration calls. -/
def Reachable (sort : (Nat → Part) → List Nat → List Nat) : St → Prop :=
  Reach (fun s => ∃ s0 : St, s0.order = [] ∧ s0.validNo = 0 ∧
      (∀ i, (s0.part i).min = 0 ∧ (s0.part i).valid = false) ∧
      initParts sort s0 ((List.range 33).tail) = some s)
    (fun s t => ∃ standby cs, t = (configureAll sort standby s cs).1)

/-! ### Proofs -/

theorem valid_iff (c : Cfg) : validate c = true ↔ Valid c := by
  unfold validate Valid nameValid prioValid nameMax classMax
  by_cases h : 33 ≤ c.id
  · rw [if_pos h]
    constructor
    · intro h'; cases h'
    · intro h'; omega
  · rw [if_neg h]
    cases hn : c.name with
    | none => simp; omega
    | some name =>
      simp only [Bool.and_eq_true, decide_eq_true_eq, Bool.or_eq_true, List.all_eq_true]
      constructor
      · intro h'
        refine ⟨by omega, fun n e => ?_⟩
        cases e
        exact ⟨h'.1.1.1, h'.1.1.2.2, h'.1.1.2.1, h'.1.2.symm, h'.2⟩
      · intro h'
        obtain ⟨a, b, c', d, e⟩ := h'.2 name rfl
        exact ⟨⟨⟨a, c', b⟩, d.symm⟩, e⟩

theorem refused_iff (c : Cfg) : refused c = true ↔ Refused c := by
  unfold refused Refused
  cases c.name with
  | none => simp
  | some name => simp

theorem foldlM_init {sort : (Nat → Part) → List Nat → List Nat} (hsort : Sorts sort) :
    ∀ (ids : List Nat) (s : St), J s → ids.Nodup → (∀ i ∈ ids, i < classMax ∧ i ≠ 0 ∧ i ∉ s.order) →
      ∃ s', ids.foldlM (fun s i => addPart sort s i inactive 0 100 255 false) s = some s' ∧ J s' ∧
        (∀ i, i ∈ s'.order ↔ i ∈ s.order ∨ i ∈ ids)
  | [], s, hj, _, _ => ⟨s, rfl, hj, fun i => by simp⟩
  | x :: ids, s, hj, hn, hm => by
    obtain ⟨hx1, hx2, hx3⟩ := hm x List.mem_cons_self
    obtain ⟨s1, e1, j1, p1⟩ := addPart_spec hsort hj hx1 hx3 (name := inactive) (by decide) (v := false)
      (fun h => absurd h hx2) (fun _ => rfl)
    rw [List.nodup_cons] at hn
    obtain ⟨s2, e2, j2, p2⟩ := foldlM_init hsort ids s1 j1 hn.2 (by
      intro i hi
      obtain ⟨a, b, c⟩ := hm i (List.mem_cons_of_mem _ hi)
      refine ⟨a, b, fun h => ?_⟩
      have := p1.mem_iff.1 h
      rw [List.mem_cons] at this
      rcases this with h' | h'
      · exact hn.1 (h' ▸ hi)
      · exact c h')
    refine ⟨s2, ?_, j2, ?_⟩
    · rw [List.foldlM_cons, e1]; exact e2
    · intro i
      rw [p2, p1.mem_iff, List.mem_cons, List.mem_cons]
      constructor
      · rintro ((h | h) | h)
        · exact Or.inr (Or.inl h)
        · exact Or.inl h
        · exact Or.inr (Or.inr h)
      · rintro (h | h | h)
        · exact Or.inl (Or.inr h)
        · exact Or.inl (Or.inl h)
        · exact Or.inr h

/-- The set-up succeeds. -/
theorem init_spec {sort : (Nat → Part) → List Nat → List Nat} (hsort : Sorts sort) (s : St)
    (h1 : s.order = []) (h2 : s.validNo = 0)
    (h3 : ∀ i, (s.part i).min = 0 ∧ (s.part i).valid = false) :
    ∃ s', initParts sort s ((List.range 33).tail) = some s' ∧ J s' ∧ ∀ i, i < classMax → i ∈ s'.order := by
  have hj : J s := by
    refine ⟨fun i => (h3 i).1, ?_, fun i _ => (h3 i).2, ?_, ?_⟩
    · intro i hi; rw [h1] at hi; cases hi
    · rw [h1]; exact List.nodup_nil
    · rw [h1, h2]; rfl
  obtain ⟨s1, e1, j1, p1⟩ := addPart_spec hsort hj (id := 0) (by decide) (by rw [h1]; simp)
    (name := unclassified) (by decide) (v := true) (fun _ => ⟨rfl, rfl⟩) (fun h => (by cases h))
  obtain ⟨s2, e2, j2, p2⟩ := foldlM_init hsort ((List.range 33).tail) s1 j1 (by decide) (by
    intro i hi
    have hi' : i < 33 ∧ i ≠ 0 := by
      have : ∀ i ∈ (List.range 33).tail, i < 33 ∧ i ≠ 0 := by decide
      exact this i hi
    refine ⟨hi'.1, hi'.2, fun h => ?_⟩
    have := p1.mem_iff.1 h
    rw [h1] at this
    simp at this
    exact hi'.2 this)
  refine ⟨s2, ?_, j2, ?_⟩
  · unfold initParts
    rw [e1]; exact e2
  · intro i hi
    rw [p2]
    have : ∀ i < 33, i = 0 ∨ i ∈ (List.range 33).tail := by decide
    rcases this i hi with h | h
    · left; rw [p1.mem_iff, h]; exact List.mem_cons_self
    · exact Or.inr h

theorem configureAll_J {sort : (Nat → Part) → List Nat → List Nat} (hsort : Sorts sort) {s : St}
    (hj : J s) (hfull : ∀ i, i < classMax → i ∈ s.order) (standby : Bool) (cs : List Cfg) :
    J (configureAll sort standby s cs).1 ∧
    (∀ i, i < classMax → i ∈ (configureAll sort standby s cs).1.order) ∧
    ((configureAll sort standby s cs).2 = true ↔
      standby = false ∧ (∀ c ∈ cs, validate c = true) ∧ ∀ c ∈ cs, refused c = false) := by
  unfold configureAll
  cases standby with
  | true => exact ⟨hj, hfull, by simp⟩
  | false =>
    rw [if_neg (by decide)]
    by_cases hv : cs.all validate = false
    · rw [if_pos hv]
      refine ⟨hj, hfull, ?_⟩
      constructor
      · intro h; cases h
      · rintro ⟨_, h, _⟩
        rw [List.all_eq_true.2 h] at hv; cases hv
    · rw [if_neg hv]
      have hv' : ∀ c ∈ cs, validate c = true := by
        rw [← List.all_eq_true]; simpa using hv
      obtain ⟨a1, a2, a3, _⟩ := editAll_spec cs s hj hfull hv'
      revert a1 a2 a3
      generalize editAll s cs = r
      obtain ⟨s', b⟩ := r
      intro a1 a2 a3
      cases b with
      | true =>
        refine ⟨a1.reorder (hsort _ _), ?_, ?_⟩
        · intro i hi
          exact (hsort _ _).mem_iff.2 (by rw [show s'.order = s.order from a2]; exact hfull i hi)
        · exact ⟨fun _ => ⟨rfl, hv', a3.1 rfl⟩, fun _ => rfl⟩
      | false =>
        refine ⟨a1.reorder (by rw [show s'.order = s.order from a2]), hfull, ?_⟩
        constructor
        · intro h; cases h
        · intro h; exact a3.2 h.2.2

theorem reach_J {sort : (Nat → Part) → List Nat → List Nat} (hsort : Sorts sort) {s : St}
    (h : Reachable sort s) : J s ∧ ∀ i, i < classMax → i ∈ s.order := by
  refine Reach.inv (P := fun s => J s ∧ ∀ i, i < classMax → i ∈ s.order) ?_ ?_ s h
  · rintro s ⟨s0, h1, h2, h3, h4⟩
    obtain ⟨s', e, j, f⟩ := init_spec hsort s0 h1 h2 h3
    rw [e] at h4
    cases h4
    exact ⟨j, f⟩
  · rintro s t ⟨j, f⟩ ⟨standby, cs, rfl⟩
    obtain ⟨a, b, _⟩ := configureAll_J hsort j f standby cs
    exact ⟨a, b⟩

/-! ### C38 -/

/-- The classes can be set up. -/
theorem init_succeeds {sort : (Nat → Part) → List Nat → List Nat} (hsort : Sorts sort) (s0 : St)
    (h1 : s0.order = []) (h2 : s0.validNo = 0)
    (h3 : ∀ i, (s0.part i).min = 0 ∧ (s0.part i).valid = false) :
    ∃ s, initParts sort s0 ((List.range 33).tail) = some s ∧ Reachable sort s := by
  obtain ⟨s', e, _⟩ := init_spec hsort s0 h1 h2 h3
  exact ⟨s', e, Reach.init ⟨s0, h1, h2, h3, e⟩⟩

/-- Whatever calls are made, successful or not: the list holds each of the 33 classes once, the
default class stays valid with its own name, sizes, priorities and modes stay in range, unused
classes are called "Inactive", and the counter is the number of valid classes. -/
theorem config_sane {sort : (Nat → Part) → List Nat → List Nat} (hsort : Sorts sort) {s : St}
    (h : Reachable sort s) :
    s.order.Perm (List.range 33) ∧
    (s.part 0).valid = true ∧ (s.part 0).name = unclassified ∧
    (∀ i < 33, (s.part i).min = 0 ∧ (s.part i).max ≤ 100 ∧
      ((s.part i).prio = -1 ∨ 0 ≤ (s.part i).prio ∧ (s.part i).prio ≤ 255) ∧
      -1 ≤ (s.part i).mode ∧ (s.part i).mode ≤ 6 ∧
      ((s.part i).valid = false → (s.part i).name = inactive)) ∧
    s.validNo = ((List.range 33).countP fun i => (s.part i).valid : Nat) := by
  obtain ⟨j, f⟩ := reach_J hsort h
  have hp : s.order.Perm (List.range 33) := by
    rw [List.perm_ext_iff_of_nodup j.nodup List.nodup_range]
    intro i
    rw [List.mem_range]
    exact ⟨fun h => (j.sane i h).lt, f i⟩
  have h0 := (j.sane 0 (f 0 (by decide))).zero rfl
  refine ⟨hp, h0.1, h0.2, ?_, ?_⟩
  · intro i hi
    have hs := j.sane i (f i hi)
    refine ⟨j.min i, hs.max, ?_, hs.mode.1, hs.mode.2, hs.name⟩
    have := hs.prio
    unfold prioValid at this
    simp at this
    omega
  · rw [j.count, hp.countP_eq]

/-- A call succeeds exactly if the cache is not in standby, every entry is valid and none is
refused. -/
theorem success_iff {sort : (Nat → Part) → List Nat → List Nat} (hsort : Sorts sort) {s : St}
    (h : Reachable sort s) (standby : Bool) (cs : List Cfg) :
    (configureAll sort standby s cs).2 = true ↔
      standby = false ∧ (∀ c ∈ cs, Valid c) ∧ ∀ c ∈ cs, ¬ Refused c := by
  obtain ⟨j, f⟩ := reach_J hsort h
  rw [(configureAll_J hsort j f standby cs).2.2]
  simp only [← valid_iff, ← refused_iff, Bool.not_eq_true]

theorem editAll_effect : ∀ (cs : List Cfg) (s : St), J s → (∀ i, i < classMax → i ∈ s.order) →
    (∀ c ∈ cs, validate c = true) → (editAll s cs).2 = true →
    ∀ i, (editAll s cs).1.part i = (cs.filter fun c => c.id = i).foldl effect (s.part i)
  | [], s, _, _, _, _, i => rfl
  | c :: cs, s, hj, hfull, hv, hok, i => by
    have h1 := (editAll_spec (c :: cs) s hj hfull hv).2.2.1.1 hok
    obtain ⟨s', a1, a2, a3, a4, a5, a6⟩ :=
      (edit_spec hj hfull (hv c List.mem_cons_self)).2 (h1 c List.mem_cons_self)
    unfold editAll at hok ⊢
    rw [a1] at hok ⊢
    dsimp only at hok ⊢
    rw [editAll_effect cs s' a2 (by rw [a3]; exact hfull)
      (fun c' hc' => hv c' (List.mem_cons_of_mem _ hc')) hok i]
    by_cases hi : c.id = i
    · rw [List.filter_cons_of_pos (by simp [hi]), List.foldl_cons]
      congr 1
      rw [← hi]
      unfold effect
      cases hn : c.name with
      | none => rw [a6 hn]; rfl
      | some name => rw [a5 name hn]; rfl
    · rw [List.filter_cons_of_neg (by simp [hi]), a4 i (fun e => hi e.symm)]

/-- A successful call does to each class exactly what the entries for it ask, in their order, and
nothing to classes without an entry. -/
theorem configured_exact {sort : (Nat → Part) → List Nat → List Nat} (hsort : Sorts sort) {s : St}
    (h : Reachable sort s) {standby : Bool} {cs : List Cfg}
    (hok : (configureAll sort standby s cs).2 = true) (i : Nat) :
    (configureAll sort standby s cs).1.part i =
      (cs.filter fun c => c.id = i).foldl effect (s.part i) := by
  obtain ⟨j, f⟩ := reach_J hsort h
  obtain ⟨hs, hv, hr⟩ := (configureAll_J hsort j f standby cs).2.2.1 hok
  have hok' := (editAll_spec cs s j f hv).2.2.1.2 hr
  rw [← editAll_effect cs s j f hv hok' i]
  unfold configureAll
  rw [hs, if_neg (by decide), if_neg (by rw [List.all_eq_true.2 hv]; decide)]
  revert hok'
  generalize editAll s cs = r
  obtain ⟨s', b⟩ := r
  rintro rfl
  rfl

/-- A call on a standby cache, or with an invalid entry, changes nothing. -/
theorem rejected_unchanged (sort : (Nat → Part) → List Nat → List Nat) (s : St) (standby : Bool)
    (cs : List Cfg) (h : standby = true ∨ ∃ c ∈ cs, ¬ Valid c) :
    configureAll sort standby s cs = (s, false) := by
  unfold configureAll
  by_cases hs : standby = true
  · rw [if_pos hs]
  · rw [if_neg hs, if_pos]
    rcases h with h | ⟨c, hc, hv⟩
    · exact absurd h hs
    · rw [← valid_iff] at hv
      rw [← Bool.not_eq_true, List.all_eq_true]
      exact fun h => hv (h c hc)

/-- A failed call changes nothing, except for the classes named before the first refused entry.
Missing for the full claim: those classes keep their new configuration (`rollback_lost`). -/
theorem all_or_nothing_partial {sort : (Nat → Part) → List Nat → List Nat} (hsort : Sorts sort)
    {s : St} (h : Reachable sort s) {standby : Bool} {cs : List Cfg}
    (hfail : (configureAll sort standby s cs).2 = false) :
    (configureAll sort standby s cs).1.order = s.order ∧
    ∀ pre c post, cs = pre ++ c :: post → (∀ c ∈ pre, ¬ Refused c) → Refused c →
      ∀ i, (∀ c ∈ pre, c.id ≠ i) → (configureAll sort standby s cs).1.part i = s.part i := by
  obtain ⟨j, f⟩ := reach_J hsort h
  revert hfail
  unfold configureAll
  by_cases hs : standby = true
  · rw [if_pos hs]; exact fun _ => ⟨rfl, fun _ _ _ _ _ _ _ _ => rfl⟩
  · rw [if_neg hs]
    by_cases hv : cs.all validate = false
    · rw [if_pos hv]; exact fun _ => ⟨rfl, fun _ _ _ _ _ _ _ _ => rfl⟩
    · rw [if_neg hv]
      have hv' : ∀ c ∈ cs, validate c = true := by
        rw [← List.all_eq_true]; simpa using hv
      have key : ∀ (pre : List Cfg) (s : St) (c : Cfg) (post : List Cfg), J s →
          (∀ i, i < classMax → i ∈ s.order) → (∀ x ∈ pre ++ c :: post, validate x = true) →
          (∀ c ∈ pre, ¬ Refused c) → Refused c →
          ∀ i, (∀ c ∈ pre, c.id ≠ i) → (editAll s (pre ++ c :: post)).1.part i = s.part i := by
        intro pre
        induction pre with
        | nil =>
          intro s c post hj hf hval _ hr i _
          rw [List.nil_append]
          unfold editAll
          rw [(edit_spec hj hf (hval c (by simp))).1 ((refused_iff c).2 hr)]
        | cons x pre ih =>
          intro s c post hj hf hval hpre hr i hi
          rw [List.cons_append]
          unfold editAll
          have hx : refused x = false := by
            rw [← Bool.not_eq_true, refused_iff]; exact hpre x List.mem_cons_self
          obtain ⟨s', a1, a2, a3, a4, _⟩ := (edit_spec hj hf (hval x (by simp))).2 hx
          rw [a1]
          dsimp only
          rw [ih s' c post a2 (by rw [a3]; exact hf)
            (fun y hy => hval y (by rw [List.cons_append]; exact List.mem_cons_of_mem _ hy))
            (fun y hy => hpre y (List.mem_cons_of_mem _ hy)) hr i
            (fun y hy => hi y (List.mem_cons_of_mem _ hy))]
          exact a4 i (fun e => hi x List.mem_cons_self e.symm)
      have hkey := fun (pre : List Cfg) (c : Cfg) (post : List Cfg) (e : cs = pre ++ c :: post) =>
        key pre s c post j f (by rw [← e]; exact hv')
      have hkey' : ∀ pre c post, cs = pre ++ c :: post → (∀ c ∈ pre, ¬ Refused c) → Refused c →
          ∀ i, (∀ c ∈ pre, c.id ≠ i) → (editAll s cs).1.part i = s.part i := by
        intro pre c post e h1 h2 i h3
        have := hkey pre c post e h1 h2 i h3
        rw [← e] at this
        exact this
      revert hkey'
      generalize editAll s cs = r
      obtain ⟨s', b⟩ := r
      cases b with
      | true => intro _ hfail; cases hfail
      | false => intro hk _; exact ⟨rfl, hk⟩

/-- If the first entry is the one that is refused, a failed call changes nothing. -/
theorem first_refused_unchanged {sort : (Nat → Part) → List Nat → List Nat} (hsort : Sorts sort)
    {s : St} (h : Reachable sort s) {standby : Bool} {c : Cfg} {cs : List Cfg} (hr : Refused c) (i : Nat) :
    (configureAll sort standby s (c :: cs)).2 = false ∧
    (configureAll sort standby s (c :: cs)).1.part i = s.part i := by
  have hf : (configureAll sort standby s (c :: cs)).2 = false := by
    rw [← Bool.not_eq_true, success_iff hsort h]
    rintro ⟨_, _, h3⟩
    exact h3 c List.mem_cons_self hr
  exact ⟨hf, (all_or_nothing_partial hsort h hf).2 [] c cs rfl (by simp) hr i (by simp)⟩

/-! ### The rollback -/

/-- Classes before set-up. -/
def blank : St :=
  { part := fun _ => { name := [], min := 0, max := 0, valid := false, added := false, prio := 0, mode := 0 },
    validNo := 0, order := [] }

/-- An entry that is fine, and one with an empty name, which validation accepts. -/
def fine : Cfg := { id := 1, max := 50, name := some [97], mode := 1, prio := 3 }
/-- See `fine`. -/
def empty : Cfg := { id := 2, max := 50, name := some [], mode := 1, prio := 3 }

/-- A failed call is not undone: from the state after set-up, the call with a fine entry for class 1
and then an entry with an empty name for class 2 returns an error, and class 1, which was invalid
before, is valid after, with the new limits. -/
theorem rollback_lost : ∃ s, Reachable (fun _ l => l) s ∧ (s.part 1).valid = false ∧
    (configureAll (fun _ l => l) false s [fine, empty]).2 = false ∧
    ((configureAll (fun _ l => l) false s [fine, empty]).1.part 1) = effect (s.part 1) fine ∧
    (configureAll (fun _ l => l) false s [fine, empty]).1.validNo = s.validNo + 1 := by
  refine ⟨(initParts (fun _ l => l) blank ((List.range 33).tail)).get (by decide +kernel), ?_, ?_⟩
  · refine Reach.init ⟨blank, rfl, rfl, fun _ => ⟨rfl, rfl⟩, ?_⟩
    rw [Option.some_get]
  · decide +kernel

/-! ### Examples -/

example : Sorts fun _ l => l.reverse := fun _ l => List.reverse_perm l

example : ∃ s, Reachable (fun _ l => l) s ∧
    (configureAll (fun _ l => l) false s [fine, { fine with id := 7, name := some [98] }]).2 = true := by
  obtain ⟨s, _, h⟩ := init_succeeds (sort := fun _ l => l) (fun _ l => List.Perm.refl l) blank rfl rfl
    (fun _ => ⟨rfl, rfl⟩)
  refine ⟨s, h, ?_⟩
  rw [success_iff (fun _ l => List.Perm.refl l) h]
  refine ⟨rfl, ?_, ?_⟩
  · intro c hc; rw [← valid_iff]; revert c; decide
  · intro c hc; rw [← refused_iff]; revert c; decide

example : Valid fine ∧ Valid empty ∧ ¬ Refused fine ∧ Refused empty ∧ ¬ Valid { fine with max := 101 } := by
  rw [← valid_iff, ← valid_iff, ← valid_iff, ← refused_iff, ← refused_iff]
  decide

end Verif.IoClass
