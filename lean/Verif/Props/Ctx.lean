import Verif.Lemma.Ctx

/-! C57: the context of the library. -/

namespace Verif.Ctx

/-- All calls of a creation succeed. -/
def In.good (i : In) : Prop :=
  i.mem = true ∧ i.mtx = true ∧ i.log = true ∧ i.req = true ∧ i.mio = true ∧ i.core = true ∧ i.cache = true ∧
  i.comp = true

/-- Nothing is held. -/
def Nothing (h : Held) : Prop := h.mem = 0 ∧ h.mtx = 0 ∧ h.log = 0 ∧ h.req = 0 ∧ h.mio = 0 ∧ h.live = []

/-- The type object a context has under an id. -/
def Has (c : C) (id t : Nat) : Prop := c.types[id]? = some (some t)

instance (c : C) (id t : Nat) : Decidable (Has c id t) := inferInstanceAs (Decidable (_ = _))

theorem has_reg {c : C} {id t : Nat} : Has c id t ↔ reg c.types id = some t := by
  unfold Has reg
  cases c.types[id]? <;> simp

/-! ## Creation -/

/-- **A creation succeeds exactly if all its calls do.** -/
theorem create_ok_iff (s : St) (i : In) : (create s i).2 = true ↔ i.good := by
  obtain ⟨a, b, c, d, e, f, g, h⟩ := i
  unfold create In.good
  cases a <;> cases b <;> cases c <;> cases d <;> cases e <;> cases f <;> cases g <;> cases h <;> simp

/-- **A creation that succeeds** gives a context with one reference, the three types of the library, no other
type, no cache and an empty pool. -/
theorem create_ok (s : St) (i : In) (h : (create s i).2 = true) : ∃ c, (create s i).1.ctx = some c ∧
    c.refs = 1 ∧ c.caches = 0 ∧ c.pool = [] ∧ c.cnt = 0 ∧
    (∀ id, id < 8 → ∀ t, ¬ Has c id t) ∧ (∃ t, Has c 8 t) ∧ (∃ t, Has c 9 t) ∧ (∃ t, Has c 10 t) := by
  have hg := (create_ok_iff s i).mp h
  obtain ⟨h1, h2, h3, h4, h5, h6, h7, h8⟩ := hg
  unfold create
  simp only [h1, h2, h3, h4, h5, h6, h7, h8, Bool.not_true, Bool.false_eq_true, if_false]
  refine ⟨_, rfl, rfl, rfl, rfl, rfl, ?_, ⟨s.next, rfl⟩, ⟨s.next + 1, rfl⟩, ⟨s.next + 2, rfl⟩⟩
  intro id hid t
  match id, hid with
  | 0, _ | 1, _ | 2, _ | 3, _ | 4, _ | 5, _ | 6, _ | 7, _ => simp [Has, maxUser]

/-- **What a creation that fails leaves behind**, in all cases: memory, logger and pools are given back; the
mutex never is; the type of core volumes stays if the type of cache volumes cannot be registered, and the
type of cache volumes stays if the composite type cannot. -/
theorem create_error_partial (s : St) (i : In) (h : (create s i).2 = false) :
    (create s i).1.ctx = s.ctx ∧ (create s i).1.held.mem = s.held.mem ∧ (create s i).1.held.log = s.held.log ∧
    (create s i).1.held.req = s.held.req ∧ (create s i).1.held.mio = s.held.mio ∧
    (create s i).1.held.mtx = s.held.mtx + (if i.mem && i.mtx then 1 else 0) ∧
    (create s i).1.held.live =
      if i.mem && i.mtx && i.log && i.req && i.mio && i.core then
        (if i.cache then (s.next + 1) :: s.held.live else s.next :: s.held.live)
      else s.held.live := by
  obtain ⟨a, b, c, d, e, f, g, k⟩ := i
  cases a
  · exact ⟨rfl, rfl, rfl, rfl, rfl, rfl, rfl⟩
  cases b
  · exact ⟨rfl, rfl, rfl, rfl, rfl, rfl, rfl⟩
  cases c
  · exact ⟨rfl, rfl, rfl, rfl, rfl, rfl, rfl⟩
  cases d
  · exact ⟨rfl, rfl, rfl, rfl, rfl, rfl, rfl⟩
  cases e
  · exact ⟨rfl, rfl, rfl, rfl, rfl, rfl, rfl⟩
  cases f
  · exact ⟨rfl, rfl, rfl, rfl, rfl, rfl, rfl⟩
  cases g
  · exact ⟨rfl, rfl, rfl, rfl, rfl, rfl, rfl⟩
  cases k
  · refine ⟨rfl, rfl, rfl, rfl, rfl, rfl, ?_⟩
    show ((s.next + 1) :: s.next :: s.held.live).erase s.next = (s.next + 1) :: s.held.live
    rw [List.erase_cons_tail (by simp)]
    simp
  · cases h

/-! ## References -/

/-- **A context lives as long as there are references**: those of the user and one for each cache. -/
theorem refs_counted {l : List Op} {c : C} (h : (run l).ctx = some c) :
    c.refs = (run l).mine + c.caches ∧ 0 < c.refs :=
  ⟨((inv_run l).sm c h).refs, ((inv_run l).sm c h).pos⟩

/-- **The last put destroys the context and no other does.** -/
theorem put_last {l : List Op} {c : C} (h : (run l).ctx = some c) (hm : 0 < (run l).mine) :
    (run (l ++ [.put])).ctx = none ↔ (run l).mine = 1 ∧ c.caches = 0 := by
  have i := (inv_run l).sm c h
  have hr := i.refs
  rw [run_snoc]
  unfold step
  simp only [h]
  rw [if_neg (by omega)]
  unfold put
  split
  · rename_i hn
    constructor
    · intro x; cases x
    · intro x; omega
  · rename_i hn
    simp only [ne_eq, Decidable.not_not] at hn
    exact ⟨fun _ => by omega, fun _ => rfl⟩

/-- **No assertion fails**: a context is never destroyed with a cache on its list. -/
theorem no_bug (l : List Op) : (run l).bug = false := (inv_run l).bug

/-- **With a context** exactly one structure, one logger and one of each pool are held; without one, none. -/
theorem held_once (l : List Op) :
    let n := if (run l).ctx.isSome then 1 else 0
    (run l).held.mem = n ∧ (run l).held.log = n ∧ (run l).held.req = n ∧ (run l).held.mio = n := by
  have v := inv_run l
  cases h : (run l).ctx with
  | none => have i := v.nn h; exact ⟨i.mem, i.log, i.req, i.mio⟩
  | some c => have i := v.sm c h; exact ⟨i.mem, i.log, i.req, i.mio⟩

/-- **Without a context nothing is held**, if no creation ever failed. -/
theorem nothing_left_partial {l : List Op} (h : (run l).ctx = none) (hf : (run l).failed = false) :
    Nothing (run l).held := by
  have i := (inv_run l).nn h
  exact ⟨i.mem, (i.nil hf).1, i.log, i.req, i.mio, (i.nil hf).2⟩

/-- **With a context one mutex is held and the type objects are those registered**, if no creation ever
failed. -/
theorem types_exact_partial {l : List Op} {c : C} (h : (run l).ctx = some c) (hf : (run l).failed = false) :
    (run l).held.mtx = 1 ∧ ∀ t, t ∈ (run l).held.live ↔ ∃ id, Has c id t := by
  have i := (inv_run l).sm c h
  refine ⟨i.mtx.2 hf, fun t => ⟨fun x => ?_, fun ⟨id, x⟩ => i.rg.mem id t (has_reg.mp x)⟩⟩
  obtain ⟨j, hj⟩ := i.all hf t x
  exact ⟨j, has_reg.mpr hj⟩

/-! ## Types -/

/-- **A registered type object has not been freed**, and is registered under one id only. -/
theorem type_live {l : List Op} {c : C} (h : (run l).ctx = some c) {id t : Nat} (ht : Has c id t) :
    t ∈ (run l).held.live ∧ ∀ id', Has c id' t → id' = id := by
  have i := (inv_run l).sm c h
  exact ⟨i.rg.mem id t (has_reg.mp ht), fun id' x => i.rg.inj id' id t (has_reg.mp x) (has_reg.mp ht)⟩

/-- **A registration succeeds exactly if** the id is one for users and free, the operations are complete and
memory is found. -/
theorem register_ok_iff {l : List Op} {c : C} (h : (run l).ctx = some c) (id : Nat) (ok : Bool) :
    (register (run l) c id ok).2 = true ↔ id < 8 ∧ (∀ t, ¬ Has c id t) ∧ ok = true := by
  have i := (inv_run l).sm c h
  unfold register maxUser
  by_cases h1 : id ≥ 8
  · rw [if_pos h1]
    constructor
    · intro x; cases x
    · intro x; omega
  · rw [if_neg h1]
    have hg : getInternal c id = reg c.types id := by
      unfold getInternal
      rw [if_neg (by unfold maxType; omega)]
      rfl
    have hn : (∀ t, ¬ Has c id t) ↔ reg c.types id = none := by
      cases hx : reg c.types id with
      | none => exact ⟨fun _ => rfl, fun _ t ht => (by rw [has_reg, hx] at ht; cases ht)⟩
      | some t => exact ⟨fun x => absurd (has_reg.mpr hx) (x t), fun x => (by cases x)⟩
    rw [hn, hg]
    cases hx : reg c.types id with
    | none =>
      have : ¬ (11 ≤ id) := by omega
      cases ok <;> simp [maxType, this] <;> omega
    | some t => simp

/-- **A registration that fails changes nothing.** -/
theorem register_fails (s : St) (c : C) (id : Nat) (ok : Bool) (h : (register s c id ok).2 = false) :
    (register s c id ok).1 = s := by
  unfold register at h ⊢
  split
  · rfl
  · split
    · rfl
    · split
      · rfl
      · rename_i h1 h2 h3
        rw [if_neg h1, if_neg h2, if_neg h3] at h
        cases h

/-- **What a registration that succeeds does**: the id has a new type object, nothing else changes. -/
theorem register_does {l : List Op} {c : C} (h : (run l).ctx = some c) {id : Nat} {ok : Bool}
    (hr : (register (run l) c id ok).2 = true) : ∃ c' t, (register (run l) c id ok).1.ctx = some c' ∧
    getType c' id = some t ∧ t ∉ (run l).held.live ∧
    (∀ id' t', id' ≠ id → (Has c' id' t' ↔ Has c id' t')) ∧ c'.pool = c.pool ∧ c'.refs = c.refs := by
  have v := inv_run l
  have i := v.sm c h
  have hk := (register_ok_iff h id ok).mp hr
  have hl : id < c.types.length := by rw [i.rg.len]; unfold maxType; omega
  have hg : getInternal c id = none := by
    unfold getInternal
    rw [if_neg (by unfold maxType; omega)]
    cases hx : (c.types[id]?).join with
    | none => rfl
    | some t => exact absurd (has_reg.mpr (show reg c.types id = some t from hx)) (hk.2.1 t)
  have he : register (run l) c id ok = ({ run l with
      ctx := some { c with types := c.types.set id (some (run l).next) }
      held := { (run l).held with live := (run l).next :: (run l).held.live }, next := (run l).next + 1 }, true) := by
    unfold register
    rw [if_neg (by unfold maxUser; omega), hg, hk.2.2]
    rw [if_neg (by simp [maxType]; omega)]
    rfl
  rw [he]
  refine ⟨_, (run l).next, rfl, ?_, fun x => absurd (v.fr _ x) (by omega), ?_, rfl, rfl⟩
  · unfold getType getInternal
    rw [if_neg (by unfold maxUser; omega), if_neg (by unfold maxType; omega)]
    have := reg_set c.types id (some (run l).next) hl id
    rw [if_pos rfl] at this
    exact this
  · intro id' t' hne
    rw [has_reg, has_reg]
    have := reg_set c.types id (some (run l).next) hl id'
    rw [if_neg hne] at this
    simp only
    rw [this]

/-- **After unregistering, the id has no type and the others have theirs**; the type object is freed. -/
theorem unregister_does {l : List Op} {c : C} (h : (run l).ctx = some c) {id : Nat} (hid : id < 11) :
    ∃ c', (unregister (run l) c id).ctx = some c' ∧ (∀ t, ¬ Has c' id t) ∧
    (∀ id' t, id' ≠ id → (Has c' id' t ↔ Has c id' t)) ∧
    (∀ t, Has c id t → t ∉ (unregister (run l) c id).held.live) := by
  have i := (inv_run l).sm c h
  obtain ⟨h1, h2, h3⟩ := unreg_one i.rg id
  unfold unregister
  rw [if_pos (show id < maxType from hid)]
  refine ⟨_, rfl, fun t ht => ?_, fun id' t hne => ?_, fun t ht hm => ?_⟩
  · rw [has_reg] at ht
    have := h2 id
    rw [if_pos rfl] at this
    simp only at ht
    rw [this] at ht
    cases ht
  · rw [has_reg, has_reg]
    have := h2 id'
    rw [if_neg hne] at this
    simp only
    rw [this]
  · exact ((h3 t).mp hm).2 (has_reg.mp ht)

/-- **A type object gives its id back**, with any number of registrations and unregistrations before. -/
theorem id_of_type {l : List Op} {c : C} (h : (run l).ctx = some c) {id t : Nat} (ht : Has c id t) :
    getId c (some t) = some id := by
  have i := (inv_run l).sm c h
  unfold getId
  rw [List.findIdx?_eq_some_iff_getElem]
  unfold Has at ht
  obtain ⟨hlt, hv⟩ := List.getElem?_eq_some_iff.mp ht
  refine ⟨hlt, by rw [hv]; simp, ?_⟩
  intro j hj
  simp only [beq_iff_eq]
  intro hx
  have : Has c j t := by
    unfold Has
    rw [List.getElem?_eq_getElem (Nat.lt_trans hj hlt), hx]
  have := (type_live h ht).2 j this
  omega

/-- **A type object not registered has no id.** -/
theorem id_none {c : C} {t : Nat} (hn : ∀ id, ¬ Has c id t) : getId c (some t) = none := by
  unfold getId
  rw [List.findIdx?_eq_none_iff]
  intro x hx
  obtain ⟨j, hj⟩ := List.mem_iff_getElem?.mp hx
  simp only [beq_eq_false_iff_ne, ne_eq]
  intro he
  rw [he] at hj
  exact hn j hj

/-- A volume without a type (NULL) is told the first id that is free, as if it were registered there. -/
theorem id_of_null {l : List Op} {c : C} (h : (run l).ctx = some c) (hf : ∃ id, id < 11 ∧ ∀ t, ¬ Has c id t) :
    ∃ id, getId c none = some id ∧ ∀ t, ¬ Has c id t := by
  have i := (inv_run l).sm c h
  obtain ⟨j, hj, hn⟩ := hf
  have hl : j < c.types.length := by rw [i.rg.len]; exact hj
  cases hg : getId c none with
  | none =>
    unfold getId at hg
    rw [List.findIdx?_eq_none_iff] at hg
    have := hg (c.types[j]) (List.getElem_mem hl)
    cases hx : c.types[j] with
    | none => rw [hx] at this; simp at this
    | some t =>
      refine absurd ?_ (hn t)
      unfold Has
      rw [List.getElem?_eq_getElem hl, hx]
  | some k =>
    refine ⟨k, rfl, fun t ht => ?_⟩
    unfold getId at hg
    rw [List.findIdx?_eq_some_iff_getElem] at hg
    obtain ⟨hk, hv, _⟩ := hg
    unfold Has at ht
    rw [List.getElem?_eq_getElem hk] at ht
    rw [Option.some.inj ht] at hv
    simp at hv

/-- **The types of the library are there as long as the context**, if the user does not unregister them. -/
theorem library_types_partial {l : List Op} {c : C} (h : (run l).ctx = some c) (hi : (run l).intl = false)
    {id : Nat} (h1 : 8 ≤ id) (h2 : id < 11) : ∃ t, Has c id t := by
  have := ((inv_run l).sm c h).intl hi id h1 h2
  cases hx : reg c.types id with
  | none => rw [hx] at this; cases this
  | some t => exact ⟨t, has_reg.mpr hx⟩

/-- **No freed type object is used**, if none is freed while a volume of it exists outside the pool, or in
the pool of a context that goes on. -/
theorem no_freed_type_partial (l : List Op) (h : (run l).early = false) : (run l).bad = false := (inv_run l).bad h

/-- Destroying a context never counts as freeing the type of a volume in its pool: the pool goes first. -/
theorem destroy_pool {l : List Op} {c : C} (h : (run l).ctx = some c) (hv : (run l).vols = [])
    (he : (run l).early = false) :
    (destroy (run l) c).early = false ∧ (destroy (run l) c).bad = false := by
  have i := (inv_run l).sm c h
  unfold destroy useTypes
  simp only [hv, he, (inv_run l).bad he]
  exact ⟨rfl, orphan_false.mpr (i.vol he)⟩

/-! ## Pool -/

/-- **The count of the pool is the number of its volumes.** -/
theorem pool_count {l : List Op} {c : C} (h : (run l).ctx = some c) : c.cnt = c.pool.length :=
  ((inv_run l).sm c h).cnt

/-- **A lookup finds a volume of the uuid and type exactly if there is one.** -/
theorem lookup_iff (c : C) (uuid typ : Nat) :
    (∀ v, lookup c uuid typ = some v → v ∈ c.pool ∧ v.uuid = uuid ∧ v.typ = typ) ∧
    ((lookup c uuid typ = none) ↔ ∀ v ∈ c.pool, ¬ (v.uuid = uuid ∧ v.typ = typ)) := by
  unfold lookup
  refine ⟨fun v h => ?_, ?_⟩
  · have := List.find?_some h
    simp only [Bool.and_eq_true, beq_iff_eq] at this
    exact ⟨List.mem_of_find?_eq_some h, this.2, this.1⟩
  · rw [List.find?_eq_none]
    constructor
    · intro h v hv x
      exact h v hv (by simp [x.1, x.2])
    · intro h v hv x
      simp only [Bool.and_eq_true, beq_iff_eq] at x
      exact h v hv ⟨x.2, x.1⟩

/-- **A volume is added to the pool exactly if** its type is registered for users and it could be created and
opened; otherwise nothing changes. -/
theorem pool_add {l : List Op} {c : C} (h : (run l).ctx = some c) (id uuid : Nat) (vc vo : Bool) :
    ((poolAdd (run l) c id uuid vc vo).2 = true ↔ id < 8 ∧ (∃ t, Has c id t) ∧ vc = true ∧ vo = true) ∧
    ((poolAdd (run l) c id uuid vc vo).2 = false → (poolAdd (run l) c id uuid vc vo).1 = run l) ∧
    ((poolAdd (run l) c id uuid vc vo).2 = true → ∃ c' t, (poolAdd (run l) c id uuid vc vo).1.ctx = some c' ∧
      Has c id t ∧ c'.pool = ⟨t, uuid⟩ :: c.pool) := by
  have i := (inv_run l).sm c h
  unfold poolAdd
  cases hg : getType c id with
  | none =>
    refine ⟨⟨fun x => (by cases x), fun ⟨h1, ⟨t, h2⟩, _⟩ => ?_⟩, fun _ => rfl, fun x => (by cases x)⟩
    unfold getType getInternal at hg
    rw [if_neg (by unfold maxUser; omega), if_neg (by unfold maxType; omega)] at hg
    rw [has_reg] at h2
    unfold reg at h2
    rw [hg] at h2
    cases h2
  | some t =>
    obtain ⟨h1, h2⟩ := getType_reg hg
    simp only
    rw [use_live (s := run l) (vs := [⟨t, uuid⟩]) (fun w hw => by
      rw [List.mem_singleton] at hw
      rw [hw]
      exact i.rg.mem _ _ h2)]
    have h1 : id < 8 := h1
    have h3 : ∃ t, Has c id t := ⟨t, has_reg.mpr h2⟩
    cases vc
    · simp
    cases vo
    · simp
    · simp only [Bool.not_true, Bool.false_eq_true, if_false]
      exact ⟨⟨fun _ => ⟨h1, h3, trivial, trivial⟩, fun _ => trivial⟩, fun x => (by cases x),
        fun _ => ⟨_, t, rfl, has_reg.mpr h2, rfl⟩⟩

/-- **A core takes the volume looked up, and only that one leaves the pool.** -/
theorem pool_take (s : St) (c : C) (uuid typ : Nat) :
    ((poolTake s c uuid typ).2 = false → (poolTake s c uuid typ).1 = s) ∧
    ((poolTake s c uuid typ).2 = true → ∃ v c', v ∈ c.pool ∧ v.uuid = uuid ∧ v.typ = typ ∧
      (poolTake s c uuid typ).1.ctx = some c' ∧ c'.pool = c.pool.erase v ∧
      (poolTake s c uuid typ).1.vols = v :: s.vols) := by
  unfold poolTake
  cases hl : lookup c uuid typ with
  | none => exact ⟨fun _ => rfl, fun x => (by cases x)⟩
  | some v =>
    have := (lookup_iff c uuid typ).1 v hl
    exact ⟨fun x => (by cases x), fun _ => ⟨v, _, this.1, this.2.1, this.2.2, rfl, rfl, rfl⟩⟩

/-- **A visitor sees every volume of the pool in order up to the first at which it stops.** -/
theorem visit_does (stop : Vol → Bool) (l : List Vol) : ∃ r, l = visit stop l ++ r ∧
    (∀ v, v ∈ (visit stop l).dropLast → stop v = false) ∧
    (r ≠ [] → ∃ v, (visit stop l).getLast? = some v ∧ stop v = true) := by
  induction l with
  | nil => exact ⟨[], rfl, fun v h => (by cases h), fun h => absurd rfl h⟩
  | cons a l ih =>
    unfold visit
    cases hs : stop a
    · obtain ⟨r, h1, h2, h3⟩ := ih
      simp only [Bool.false_eq_true, if_false]
      refine ⟨r, by rw [List.cons_append, ← h1], ?_, ?_⟩
      · intro v hv
        cases hw : visit stop l with
        | nil => rw [hw] at hv; cases hv
        | cons b m =>
          rw [hw, List.dropLast_cons_of_ne_nil (by simp)] at hv
          rcases List.mem_cons.mp hv with hv | hv
          · rw [hv]; exact hs
          · exact h2 v (by rw [hw]; exact hv)
      · intro hr
        obtain ⟨v, hv, hvs⟩ := h3 hr
        refine ⟨v, ?_, hvs⟩
        cases hw : visit stop l with
        | nil => rw [hw] at hv; cases hv
        | cons b m => rw [hw] at hv; rw [List.getLast?_cons_cons]; exact hv
    · simp only [if_true]
      exact ⟨l, rfl, fun v h => (by cases h), fun _ => ⟨a, rfl, hs⟩⟩

/-! ## Cases meeting the hypotheses -/

/-- All calls succeed. -/
def allOk : In := ⟨true, true, true, true, true, true, true, true⟩

/-- A context with two user types, a cache, a volume in the pool, one taken by a core. -/
def busy : List Op :=
  [.create allOk, .register 3 true, .register 5 true, .start, .get, .poolAdd 3 70 true true,
   .poolAdd 5 71 true true, .poolTake 70 3, .volCreate 5 72 true]

example : ∃ c, (run busy).ctx = some c ∧ c.refs = 3 ∧ c.caches = 1 ∧ c.pool = [⟨4, 71⟩] ∧ Has c 3 3 ∧ Has c 5 4 ∧
    (run busy).vols = [⟨4, 72⟩, ⟨3, 70⟩] ∧ (run busy).failed = false ∧ (run busy).early = false ∧
    (run busy).intl = false :=
  ⟨_, rfl, by decide, by decide, by decide, by decide, by decide, by decide, by decide, by decide, by decide⟩

example : (run (busy ++ [.delVol 0, .delVol 0, .put, .stop, .put])).ctx = none ∧
    (run (busy ++ [.delVol 0, .delVol 0, .put, .stop, .put])).early = false ∧
    Nothing (run (busy ++ [.delVol 0, .delVol 0, .put, .stop, .put])).held := by
  refine ⟨by decide, by decide, by decide, by decide, by decide, by decide, by decide, by decide⟩

/-! ## What goes wrong -/

/-- **Every creation that fails after making the mutex leaves one mutex more**, however often it is tried. -/
theorem mutex_left (n : Nat) :
    (run (List.replicate n (.create { allOk with log := false }))).held.mtx = n ∧
    (run (List.replicate n (.create { allOk with log := false }))).ctx = none := by
  induction n with
  | zero => exact ⟨rfl, rfl⟩
  | succ n ih =>
    rw [List.replicate_succ', run_snoc]
    unfold step
    simp only [ih.2]
    have := create_error_partial (run (List.replicate n (.create { allOk with log := false })))
      { allOk with log := false } rfl
    exact ⟨by rw [this.2.2.2.2.2.1, ih.1]; rfl, by rw [this.1, ih.2]⟩

/-- **A creation that cannot register the type of cache volumes, or the composite type, leaves a type
object.** -/
theorem type_left :
    (run [.create { allOk with cache := false }]).held.live.length = 1 ∧
    (run [.create { allOk with comp := false }]).held.live.length = 1 ∧
    (run [.create { allOk with comp := false }]).ctx = none := by decide

/-- **The user can unregister a type of the library**: the call refuses only ids from 11 on, although the
call that registers refuses those from 8 on; and cannot put it back. -/
theorem library_type_lost : ∃ c, (run [.create allOk, .unregister 8, .register 8 true]).ctx = some c ∧
    ∀ t, ¬ Has c 8 t := by
  refine ⟨_, rfl, fun t => ?_⟩
  simp [Has, maxUser, allOk, unregOne, maxType]

/-- **A type can be unregistered while the pool has a volume of it**, and dropping the context then uses the
freed type object. -/
theorem freed_type_used :
    (run [.create allOk, .register 3 true, .poolAdd 3 70 true true, .unregister 3, .put]).bad = true := by decide

end Verif.Ctx
