import Verif.Model.Ctx

/-! The invariant of the context (C57). -/

namespace Verif.Ctx

/-- The type object registered under an id. -/
def reg (types : List (Option Nat)) (i : Nat) : Option Nat := (types[i]?).join

/-- What is known of the types. -/
structure Reg (types : List (Option Nat)) (live : List Nat) : Prop where
  len : types.length = maxType
  mem : ∀ i u, reg types i = some u → u ∈ live
  inj : ∀ i j u, reg types i = some u → reg types j = some u → i = j
  nd : live.Nodup

theorem reg_set (types : List (Option Nat)) (i : Nat) (o : Option Nat) (h : i < types.length) (j : Nat) :
    reg (types.set i o) j = if j = i then o else reg types j := by
  unfold reg
  rw [List.getElem?_set]
  by_cases hj : i = j
  · subst hj
    simp [h]
  · rw [if_neg hj, if_neg (Ne.symm hj)]

theorem reg_lt {types : List (Option Nat)} {i u : Nat} (h : reg types i = some u) : i < types.length := by
  unfold reg at h
  cases hg : types[i]? with
  | none => rw [hg] at h; cases h
  | some x => exact (List.getElem?_eq_some_iff.mp hg).1

/-- What one unregistration does. -/
theorem unreg_one {types : List (Option Nat)} {live : List Nat} (r : Reg types live) (id : Nat) :
    Reg (unregOne (types, live) id).1 (unregOne (types, live) id).2 ∧
    (∀ j, reg (unregOne (types, live) id).1 j = if j = id then none else reg types j) ∧
    (∀ u, u ∈ (unregOne (types, live) id).2 ↔ u ∈ live ∧ reg types id ≠ some u) := by
  have hl := r.len
  cases h : reg types id with
  | none =>
    have : unregOne (types, live) id = (types, live) := by
      unfold unregOne
      unfold reg at h
      simp only [h]
    rw [this]
    refine ⟨r, fun j => ?_, fun u => by simp⟩
    by_cases hj : j = id
    · rw [if_pos hj, hj, h]
    · rw [if_neg hj]
  | some t =>
    have hlt := reg_lt h
    have : unregOne (types, live) id = (types.set id none, live.erase t) := by
      unfold unregOne
      have h' := h
      unfold reg at h'
      simp only [h']
      rw [if_pos (hl ▸ hlt)]
    rw [this]
    have hs := reg_set types id none hlt
    refine ⟨⟨by simp [hl], ?_, ?_, r.nd.erase t⟩, hs, ?_⟩
    · intro i u hi
      rw [hs] at hi
      by_cases hj : i = id
      · rw [if_pos hj] at hi; cases hi
      · rw [if_neg hj] at hi
        refine (r.nd.mem_erase_iff).mpr ⟨?_, r.mem i u hi⟩
        intro hu
        subst hu
        exact hj (r.inj i id u hi h)
    · intro i j u hi hj
      rw [hs] at hi hj
      split at hi
      · cases hi
      · split at hj
        · cases hj
        · exact r.inj i j u hi hj
    · intro u
      rw [r.nd.mem_erase_iff]
      constructor
      · intro ⟨h1, h2⟩
        exact ⟨h2, fun x => h1 (by cases x; rfl)⟩
      · intro ⟨h1, h2⟩
        exact ⟨fun x => h2 (by rw [x]), h1⟩

theorem unreg_all (l : List Nat) {types : List (Option Nat)} {live : List Nat} (r : Reg types live) :
    ∀ u, u ∈ (l.foldl unregOne (types, live)).2 ↔ u ∈ live ∧ ∀ i ∈ l, reg types i ≠ some u := by
  induction l generalizing types live with
  | nil => intro u; simp
  | cons a l ih =>
    intro u
    obtain ⟨h1, h2, h3⟩ := unreg_one r a
    have := ih h1 u
    rw [List.foldl_cons, this, h3]
    constructor
    · intro ⟨⟨x, y⟩, z⟩
      refine ⟨x, fun i hi => ?_⟩
      rcases List.mem_cons.mp hi with hi | hi
      · rw [hi]; exact y
      · have := z i hi
        rw [h2] at this
        by_cases ha : i = a
        · rw [ha]; exact y
        · rw [if_neg ha] at this; exact this
    · intro ⟨x, y⟩
      refine ⟨⟨x, y a List.mem_cons_self⟩, fun i hi => ?_⟩
      rw [h2]
      by_cases ha : i = a
      · rw [if_pos ha]; simp
      · rw [if_neg ha]; exact y i (List.mem_cons_of_mem _ hi)

/-- What is known with a context. -/
structure CInv (s : St) (c : C) : Prop where
  refs : c.refs = s.mine + c.caches
  pos : 0 < c.refs
  mem : s.held.mem = 1
  log : s.held.log = 1
  req : s.held.req = 1
  mio : s.held.mio = 1
  mtx : 0 < s.held.mtx ∧ (s.failed = false → s.held.mtx = 1)
  rg : Reg c.types s.held.live
  all : s.failed = false → ∀ u ∈ s.held.live, ∃ i, reg c.types i = some u
  cnt : c.cnt = c.pool.length
  intl : s.intl = false → ∀ i, maxUser ≤ i → i < maxType → (reg c.types i).isSome = true
  vol : s.early = false → ∀ v ∈ c.pool, v.typ ∈ s.held.live

/-- What is known without one. -/
structure NInv (s : St) : Prop where
  mine : s.mine = 0
  mem : s.held.mem = 0
  log : s.held.log = 0
  req : s.held.req = 0
  mio : s.held.mio = 0
  nil : s.failed = false → s.held.mtx = 0 ∧ s.held.live = []

/-- The invariant. -/
structure Inv (s : St) : Prop where
  nd : s.held.live.Nodup
  fr : ∀ u ∈ s.held.live, u < s.next
  sm : ∀ c, s.ctx = some c → CInv s c
  nn : s.ctx = none → NInv s
  bug : s.bug = false
  vol : s.early = false → ∀ v ∈ s.vols, v.typ ∈ s.held.live
  bad : s.early = false → s.bad = false

theorem orphan_false {live : List Nat} {vs : List Vol} : orphan live vs = false ↔ ∀ v ∈ vs, v.typ ∈ live := by
  unfold orphan
  rw [List.any_eq_false]
  constructor
  · intro h v hv
    have := h v hv
    simpa using this
  · intro h v hv
    simpa using h v hv

theorem inv_init : Inv {} where
  nd := List.nodup_nil
  fr := fun u h => (by cases h)
  sm := fun c h => (by cases h)
  nn := fun _ => ⟨rfl, rfl, rfl, rfl, rfl, fun _ => ⟨rfl, rfl⟩⟩
  bug := rfl
  vol := fun _ v h => (by cases h)
  bad := fun _ => rfl

/-- A failed creation that holds `h`. -/
theorem Inv.fail {s : St} (v : Inv s) (hc : s.ctx = none) (h : Held) (h1 : h.mem = 0) (h2 : h.log = 0)
    (h3 : h.req = 0) (h4 : h.mio = 0) (h5 : h.live.Nodup) (h6 : ∀ u ∈ h.live, u < s.next + 2)
    (h7 : ∀ u ∈ s.held.live, u ∈ h.live) :
    Inv { s with held := h, failed := true, next := s.next + 2 } where
  nd := h5
  fr := h6
  sm := fun c x => (by rw [show s.ctx = some c from x] at hc; cases hc)
  nn := fun _ => ⟨(v.nn hc).mine, h1, h2, h3, h4, fun x => (by cases x)⟩
  bug := v.bug
  vol := fun x w hw => h7 _ (v.vol x w hw)
  bad := v.bad

theorem Inv.create {s : St} (v : Inv s) (hc : s.ctx = none) (i : In) : Inv (create s i).1 := by
  have n := v.nn hc
  have nd := v.nd
  have f0 : s.next ∉ s.held.live := fun x => absurd (v.fr _ x) (by omega)
  have f1 : s.next + 1 ∉ s.held.live := fun x => absurd (v.fr _ x) (by omega)
  have f2 : s.next + 2 ∉ s.held.live := fun x => absurd (v.fr _ x) (by omega)
  have fr : ∀ u ∈ s.held.live, u < s.next + 2 := fun u hu => Nat.lt_of_lt_of_le (v.fr u hu) (by omega)
  have n1 : (s.next :: s.held.live).Nodup := List.nodup_cons.mpr ⟨f0, nd⟩
  have n2 : ((s.next + 1) :: s.next :: s.held.live).Nodup := by
    refine List.nodup_cons.mpr ⟨?_, n1⟩
    intro x
    rcases List.mem_cons.mp x with x | x
    · omega
    · exact f1 x
  unfold Ctx.create
  simp only
  split
  · exact v.fail hc _ n.mem n.log n.req n.mio nd fr (fun u h => h)
  split
  · exact v.fail hc _ (by simp [errCtx, n.mem]) n.log n.req n.mio nd fr (fun u h => h)
  split
  · exact v.fail hc _ (by simp [errCtx, n.mem]) n.log n.req n.mio nd fr (fun u h => h)
  split
  · exact v.fail hc _ (by simp [errCtx, errLog, n.mem]) (by simp [errCtx, errLog, n.log]) n.req n.mio nd fr
      (fun u h => h)
  split
  · exact v.fail hc _ (by simp [errCtx, errLog, errMio, n.mem]) (by simp [errCtx, errLog, errMio, n.log])
      (by simp [errCtx, errLog, errMio, n.req]) n.mio nd fr (fun u h => h)
  split
  · exact v.fail hc _ (by simp [errCtx, errLog, errMio, errUtils, n.mem])
      (by simp [errCtx, errLog, errMio, errUtils, n.log]) (by simp [errCtx, errLog, errMio, errUtils, n.req])
      (by simp [errCtx, errLog, errMio, errUtils, n.mio]) nd fr (fun u h => h)
  split
  · refine v.fail hc _ (by simp [errCtx, errLog, errMio, errUtils, n.mem])
      (by simp [errCtx, errLog, errMio, errUtils, n.log]) (by simp [errCtx, errLog, errMio, errUtils, n.req])
      (by simp [errCtx, errLog, errMio, errUtils, n.mio]) n1 ?_ (fun u h => List.mem_cons_of_mem _ h)
    intro u hu
    rcases List.mem_cons.mp hu with hu | hu
    · omega
    · exact fr u hu
  split
  · have he : ((s.next + 1) :: s.next :: s.held.live).erase s.next = (s.next + 1) :: s.held.live := by
      rw [List.erase_cons_tail (by simp)]
      simp
    refine v.fail hc _ (by simp [errCtx, errLog, errMio, errUtils, errCore, n.mem])
      (by simp [errCtx, errLog, errMio, errUtils, errCore, n.log])
      (by simp [errCtx, errLog, errMio, errUtils, errCore, n.req])
      (by simp [errCtx, errLog, errMio, errUtils, errCore, n.mio]) ?_ ?_ ?_
    · show (((s.next + 1) :: s.next :: s.held.live).erase s.next).Nodup
      rw [he]
      exact List.nodup_cons.mpr ⟨f1, nd⟩
    · show ∀ u ∈ ((s.next + 1) :: s.next :: s.held.live).erase s.next, _
      rw [he]
      intro u hu
      rcases List.mem_cons.mp hu with hu | hu
      · omega
      · exact fr u hu
    · show ∀ u ∈ s.held.live, u ∈ ((s.next + 1) :: s.next :: s.held.live).erase s.next
      rw [he]
      exact fun u h => List.mem_cons_of_mem _ h
  · have nd3 : ((s.next + 2) :: (s.next + 1) :: s.next :: s.held.live).Nodup := by
      refine List.nodup_cons.mpr ⟨?_, n2⟩
      intro x
      rcases List.mem_cons.mp x with x | x
      · omega
      · rcases List.mem_cons.mp x with x | x
        · omega
        · exact f2 x
    have hreg : ∀ j u, reg (List.replicate maxUser none ++ [some s.next, some (s.next + 1), some (s.next + 2)]) j
        = some u ↔ 8 ≤ j ∧ j < 11 ∧ u = s.next + (j - 8) := by
      intro j u
      have : j < 11 ∨ 11 ≤ j := by omega
      rcases this with hj | hj
      · match j, hj with
        | 0, _ | 1, _ | 2, _ | 3, _ | 4, _ | 5, _ | 6, _ | 7, _ => simp [reg, maxUser]
        | 8, _ | 9, _ | 10, _ => simp [reg, maxUser, eq_comm]
      · have : reg (List.replicate maxUser none ++ [some s.next, some (s.next + 1), some (s.next + 2)]) j = none := by
          unfold reg
          rw [List.getElem?_eq_none (by simp [maxUser]; omega)]
          rfl
        rw [this]
        constructor
        · intro x; cases x
        · intro x; omega
    refine ⟨nd3, ?_, ?_, fun x => (by cases x), v.bug, ?_, v.bad⟩
    · intro u hu
      have : u < s.next + 3 := by
        rcases List.mem_cons.mp hu with hu | hu
        · omega
        · rcases List.mem_cons.mp hu with hu | hu
          · omega
          · rcases List.mem_cons.mp hu with hu | hu
            · omega
            · have := fr u hu; omega
      exact this
    · intro c hx
      cases hx
      refine ⟨rfl, Nat.one_pos, by simp [n.mem], by simp [n.log], by simp [n.req], by simp [n.mio],
        ⟨Nat.succ_pos _, fun hf => (by simp [(n.nil hf).1])⟩, ⟨rfl, ?_, ?_, nd3⟩, ?_, rfl, ?_, ?_⟩
      · intro i u hi
        rw [hreg] at hi
        obtain ⟨a, b, rfl⟩ := hi
        simp only [List.mem_cons]
        omega
      · intro i j u hi hj
        rw [hreg] at hi hj
        omega
      · intro hf u hu
        have hn := (n.nil hf).2
        simp only [hn, List.mem_cons, List.not_mem_nil, or_false] at hu
        rcases hu with hu | hu | hu
        · exact ⟨10, (hreg 10 u).mpr ⟨by omega, by omega, by omega⟩⟩
        · exact ⟨9, (hreg 9 u).mpr ⟨by omega, by omega, by omega⟩⟩
        · exact ⟨8, (hreg 8 u).mpr ⟨by omega, by omega, by omega⟩⟩
      · intro _ i h1 h2
        unfold maxUser at h1
        unfold maxType at h2
        rw [(hreg i _).mpr ⟨h1, h2, rfl⟩]
        rfl
      · intro _ w hw
        cases hw
    · intro x w hw
      exact List.mem_cons_of_mem _ (List.mem_cons_of_mem _ (List.mem_cons_of_mem _ (v.vol x w hw)))

theorem unreg_all_reg (l : List Nat) {types : List (Option Nat)} {live : List Nat} (r : Reg types live) :
    Reg (l.foldl unregOne (types, live)).1 (l.foldl unregOne (types, live)).2 := by
  induction l generalizing types live with
  | nil => exact r
  | cons a l ih => exact ih (unreg_one r a).1

theorem Inv.destroy {s : St} (v : Inv s) {c : C} (hc : s.ctx = some c) (m k : Nat)
    (h : c.refs = m + k + 1) (h1 : c.refs = 1) : Inv (destroy { s with mine := m } { c with caches := k }) := by
  have i := v.sm c hc
  have hm : m = 0 := by omega
  have hk : k = 0 := by omega
  have ha : ∀ u, u ∈ unregAll c.types s.held.live ↔ _ := unreg_all (List.range maxType) i.rg
  have hr : (unregAll c.types s.held.live).Nodup := (unreg_all_reg (List.range maxType) i.rg).nd
  unfold Ctx.destroy useTypes
  simp only
  generalize unregAll c.types s.held.live = live at ha hr
  refine ⟨hr, fun u hu => v.fr u ((ha u).mp hu).1, fun c x => (by cases x), fun _ => ?_, ?_, ?_, ?_⟩
  · refine ⟨hm, ?_, ?_, ?_, ?_, fun hf => ⟨?_, ?_⟩⟩
    · show s.held.mem - 1 = 0
      rw [i.mem]
    · show s.held.log - 1 = 0
      rw [i.log]
    · show s.held.req - 1 = 0
      rw [i.req]
    · show s.held.mio - 1 = 0
      rw [i.mio]
    · show s.held.mtx - 1 = 0
      rw [i.mtx.2 hf]
    · show live = []
      apply List.eq_nil_iff_forall_not_mem.mpr
      intro u hu
      obtain ⟨x, y⟩ := (ha u).mp hu
      obtain ⟨j, hj⟩ := i.all hf u x
      exact y j (List.mem_range.mpr (i.rg.len ▸ reg_lt hj)) hj
  · show (s.bug || decide (k ≠ 0)) = false
    rw [v.bug, hk]
    rfl
  · intro he w hw
    have he : (s.early || orphan live s.vols) = false := he
    rw [Bool.or_eq_false_iff] at he
    exact orphan_false.mp he.2 w hw
  · intro he
    have he : (s.early || orphan live s.vols) = false := he
    rw [Bool.or_eq_false_iff] at he
    show (s.bad || orphan s.held.live c.pool) = false
    rw [v.bad he.1, orphan_false.mpr (i.vol he.1)]
    rfl

theorem Inv.put {s : St} (v : Inv s) {c : C} (hc : s.ctx = some c) (m k : Nat)
    (h : c.refs = m + k + 1) : Inv (put { s with mine := m } { c with caches := k }) := by
  unfold Ctx.put
  have i := v.sm c hc
  split
  · rename_i hn
    refine ⟨v.nd, v.fr, ?_, fun x => (by cases x), v.bug, v.vol, v.bad⟩
    intro c' x
    cases x
    exact ⟨by simp only at hn ⊢; omega, Nat.pos_of_ne_zero hn, i.mem, i.log, i.req, i.mio, i.mtx, i.rg, i.all, i.cnt,
      i.intl, i.vol⟩
  · rename_i hn
    exact v.destroy hc m k h (by simp only [ne_eq, Decidable.not_not] at hn; have := i.pos; omega)

/-- A change of the context that keeps the types. -/
theorem Inv.chg {s : St} (v : Inv s) {c c' : C} (hc : s.ctx = some c) (m : Nat) (vs : List Vol)
    (h1 : c'.refs = m + c'.caches) (h2 : 0 < c'.refs) (h3 : c'.types = c.types) (h4 : c'.cnt = c'.pool.length)
    (h5 : ∀ w ∈ c'.pool, w ∈ c.pool ∨ w.typ ∈ s.held.live)
    (h6 : ∀ w ∈ vs, w ∈ s.vols ∨ w ∈ c.pool ∨ w.typ ∈ s.held.live) :
    Inv { s with ctx := some c', mine := m, vols := vs } := by
  have i := v.sm c hc
  refine ⟨v.nd, v.fr, ?_, fun x => (by cases x), v.bug, ?_, v.bad⟩
  · intro c'' x
    cases x
    refine ⟨h1, h2, i.mem, i.log, i.req, i.mio, i.mtx, h3 ▸ i.rg, h3 ▸ i.all, h4, h3 ▸ i.intl, ?_⟩
    intro he w hw
    rcases h5 w hw with h | h
    · exact i.vol he w h
    · exact h
  · intro he w hw
    rcases h6 w hw with h | h | h
    · exact v.vol he w h
    · exact i.vol he w h
    · exact h

/-- A use of type objects that exist changes nothing. -/
theorem use_live {s : St} {vs : List Vol} (h : ∀ w ∈ vs, w.typ ∈ s.held.live) : useTypes s vs = s := by
  unfold useTypes
  rw [orphan_false.mpr h, Bool.or_false]

theorem getType_reg {c : C} {id t : Nat} (h : getType c id = some t) : id < maxUser ∧ reg c.types id = some t := by
  unfold getType at h
  split at h
  · cases h
  · rename_i hn
    unfold getInternal at h
    split at h
    · cases h
    · exact ⟨by omega, h⟩

theorem Inv.register {s : St} (v : Inv s) {c : C} (hc : s.ctx = some c) (id : Nat) (ok : Bool) :
    Inv (register s c id ok).1 := by
  have i := v.sm c hc
  unfold Ctx.register
  split
  · exact v
  rename_i hu
  split
  · exact v
  rename_i hn
  split
  · exact v
  have hid : id < c.types.length := by rw [i.rg.len]; unfold maxUser at hu; unfold maxType; omega
  have hr : reg c.types id = none := by
    simp only [Bool.or_eq_true, decide_eq_true_eq, not_or] at hn
    have := hn.2
    unfold getInternal at this
    rw [if_neg hn.1] at this
    cases hx : reg c.types id with
    | none => rfl
    | some t => unfold reg at hx; rw [hx] at this; exact absurd rfl this
  have f0 : s.next ∉ s.held.live := fun x => absurd (v.fr _ x) (by omega)
  have nd := List.nodup_cons.mpr ⟨f0, v.nd⟩
  have hs := reg_set c.types id (some s.next) hid
  refine ⟨nd, ?_, ?_, fun x => (by cases x), v.bug, fun he w hw => List.mem_cons_of_mem _ (v.vol he w hw), v.bad⟩
  · intro u hu
    rcases List.mem_cons.mp hu with hu | hu
    · rw [hu]; exact Nat.lt_succ_self _
    · exact Nat.lt_succ_of_lt (v.fr u hu)
  · intro c' x
    cases x
    refine ⟨i.refs, i.pos, i.mem, i.log, i.req, i.mio, i.mtx, ⟨by simp [i.rg.len], ?_, ?_, nd⟩, ?_, i.cnt, ?_, ?_⟩
    · intro j u hj
      rw [hs] at hj
      split at hj
      · cases hj; exact List.mem_cons_self
      · exact List.mem_cons_of_mem _ (i.rg.mem j u hj)
    · intro j k u hj hk
      rw [hs] at hj hk
      split at hj <;> split at hk
      · omega
      · cases hj; exact absurd (i.rg.mem k _ hk) f0
      · cases hk; exact absurd (i.rg.mem j _ hj) f0
      · exact i.rg.inj j k u hj hk
    · intro hf u hu
      rcases List.mem_cons.mp hu with hu | hu
      · exact ⟨id, by rw [hs, if_pos rfl, hu]⟩
      · obtain ⟨j, hj⟩ := i.all hf u hu
        refine ⟨j, ?_⟩
        rw [hs, if_neg ?_, hj]
        intro x
        rw [x, hr] at hj
        cases hj
    · intro hi j h1 h2
      have := i.intl hi j h1 h2
      show (reg (c.types.set id (some s.next)) j).isSome = true
      rw [hs]
      split
      · rfl
      · exact this
    · intro he w hw
      exact List.mem_cons_of_mem _ (i.vol he w hw)

theorem Inv.unregister {s : St} (v : Inv s) {c : C} (hc : s.ctx = some c) (id : Nat) :
    Inv (unregister s c id) := by
  have i := v.sm c hc
  unfold Ctx.unregister
  split
  · obtain ⟨h1, h2, h3⟩ := unreg_one i.rg id
    refine ⟨h1.nd, fun u hu => v.fr u ((h3 u).mp hu).1, ?_, fun x => (by cases x), v.bug, ?_, ?_⟩
    · intro c' x
      cases x
      refine ⟨i.refs, i.pos, i.mem, i.log, i.req, i.mio, i.mtx, h1, ?_, i.cnt, ?_, ?_⟩
      · intro hf u hu
        obtain ⟨x, y⟩ := (h3 u).mp hu
        obtain ⟨j, hj⟩ := i.all hf u x
        refine ⟨j, ?_⟩
        show reg (unregOne (c.types, s.held.live) id).1 j = some u
        rw [h2, if_neg ?_, hj]
        intro z
        rw [z] at hj
        exact y hj
      · intro hi j hj1 hj2
        have hi : (s.intl || decide (id ≥ maxUser)) = false := hi
        rw [Bool.or_eq_false_iff, decide_eq_false_iff_not] at hi
        show (reg (unregOne (c.types, s.held.live) id).1 j).isSome = true
        rw [h2, if_neg (by omega)]
        exact i.intl hi.1 j hj1 hj2
      · intro he w hw
        have he : (s.early || orphan (unregOne (c.types, s.held.live) id).2 (s.vols ++ c.pool)) = false := he
        rw [Bool.or_eq_false_iff] at he
        exact orphan_false.mp he.2 w (List.mem_append_right _ hw)
    · intro he w hw
      have he : (s.early || orphan (unregOne (c.types, s.held.live) id).2 (s.vols ++ c.pool)) = false := he
      rw [Bool.or_eq_false_iff] at he
      exact orphan_false.mp he.2 w (List.mem_append_left _ hw)
    · intro he
      have he : (s.early || orphan (unregOne (c.types, s.held.live) id).2 (s.vols ++ c.pool)) = false := he
      rw [Bool.or_eq_false_iff] at he
      exact v.bad he.1
  · exact v

theorem Inv.useVol {s : St} (v : Inv s) {w : Vol} (h : w ∈ s.vols) (vs : List Vol) (hv : ∀ x ∈ vs, x ∈ s.vols) :
    Inv { useTypes s [w] with vols := vs } := by
  refine ⟨v.nd, v.fr, fun c x => ?_, fun x => ?_, v.bug, fun he x hx => v.vol he x (hv x hx), fun he => ?_⟩
  · have i := v.sm c x
    exact ⟨i.refs, i.pos, i.mem, i.log, i.req, i.mio, i.mtx, i.rg, i.all, i.cnt, i.intl, i.vol⟩
  · have i := v.nn x
    exact ⟨i.mine, i.mem, i.log, i.req, i.mio, i.nil⟩
  · show (s.bad || orphan s.held.live [w]) = false
    rw [v.bad he, orphan_false.mpr (fun x hx => by
      rw [List.mem_singleton] at hx
      rw [hx]
      exact v.vol he w h)]
    rfl

theorem Inv.step {s : St} (v : Inv s) (o : Op) : Inv (step s o) := by
  unfold Ctx.step
  split
  case h_1 i h => exact v.create h i
  case h_2 c h =>
    have i := v.sm c h
    have := v.chg h (s.mine + 1) s.vols (c' := { c with refs := c.refs + 1 }) (by have := i.refs; simp only; omega)
      (Nat.succ_pos _) rfl i.cnt (fun w hw => Or.inl hw) (fun w hw => Or.inl hw)
    exact this
  case h_3 c h =>
    split
    · exact v
    · have i := v.sm c h
      exact v.put h (s.mine - 1) c.caches (by have := i.refs; omega)
  case h_4 c h =>
    have i := v.sm c h
    have := v.chg h s.mine s.vols (c' := { c with refs := c.refs + 1, caches := c.caches + 1 })
      (by have := i.refs; simp only; omega)
      (Nat.succ_pos _) rfl i.cnt (fun w hw => Or.inl hw) (fun w hw => Or.inl hw)
    exact this
  case h_5 c h =>
    split
    · exact v
    · have i := v.sm c h
      exact v.put h s.mine (c.caches - 1) (by have := i.refs; omega)
  case h_6 id ok c h => exact v.register h id ok
  case h_7 id c h => exact v.unregister h id
  case h_8 id uuid vc vo c h =>
    have i := v.sm c h
    unfold Ctx.poolAdd
    split
    · exact v
    · rename_i t ht
      obtain ⟨_, hr⟩ := getType_reg ht
      have hl := i.rg.mem _ _ hr
      rw [use_live (s := s) (vs := [⟨t, uuid⟩]) (fun w hw => by
        rw [List.mem_singleton] at hw
        rw [hw]
        exact hl)]
      split
      · exact v
      · simp only
        split
        · exact v
        · refine v.chg h s.mine s.vols (c' := { c with pool := ⟨t, uuid⟩ :: c.pool, cnt := c.cnt + 1 }) i.refs
            i.pos rfl (by simp [i.cnt]) ?_ (fun w hw => Or.inl hw)
          intro w hw
          rcases List.mem_cons.mp hw with hw | hw
          · rw [hw]; exact Or.inr hl
          · exact Or.inl hw
  case h_9 uuid typ c h =>
    have i := v.sm c h
    unfold Ctx.poolTake
    split
    · exact v
    · rename_i w hw
      have hm : w ∈ c.pool := List.mem_of_find?_eq_some hw
      have hp : 0 < c.pool.length := List.length_pos_of_mem hm
      refine v.chg h s.mine (w :: s.vols) (c' := { c with pool := c.pool.erase w, cnt := c.cnt - 1 }) i.refs
        i.pos rfl ?_ (fun x hx => Or.inl (List.mem_of_mem_erase hx)) ?_
      · have := i.cnt
        simp only [List.length_erase_of_mem hm]
        omega
      · intro x hx
        rcases List.mem_cons.mp hx with hx | hx
        · rw [hx]; exact Or.inr (Or.inl hm)
        · exact Or.inl hx
  case h_10 id uuid ok c h =>
    have i := v.sm c h
    unfold Ctx.volCreate
    split
    · exact v
    · rename_i t ht
      obtain ⟨_, hr⟩ := getType_reg ht
      have hl := i.rg.mem _ _ hr
      simp only
      rw [use_live (s := s) (vs := [⟨t, uuid⟩]) (fun w hw => by
        rw [List.mem_singleton] at hw
        rw [hw]
        exact hl)]
      split
      · exact v
      · have := v.chg h s.mine (⟨t, uuid⟩ :: s.vols) (c' := c) i.refs i.pos rfl i.cnt (fun w hw => Or.inl hw)
          (fun w hw => by
            rcases List.mem_cons.mp hw with hw | hw
            · rw [hw]; exact Or.inr (Or.inr hl)
            · exact Or.inl hw)
        rw [← h] at this
        exact this
  case h_11 _ k =>
    split
    · exact v
    · rename_i w hw
      exact v.useVol (List.mem_of_getElem? hw) s.vols (fun x hx => hx)
  case h_12 _ k =>
    split
    · exact v
    · rename_i w hw
      exact v.useVol (List.mem_of_getElem? hw) (s.vols.eraseIdx k) (fun x hx => List.mem_of_mem_eraseIdx hx)
  case h_13 => exact v

theorem run_snoc (l : List Op) (o : Op) : run (l ++ [o]) = step (run l) o := by
  unfold run
  rw [List.foldl_append]
  rfl

theorem inv_run (l : List Op) : Inv (run l) := by
  have : ∀ (l : List Op) (s : St), Inv s → Inv (l.foldl step s) := by
    intro l
    induction l with
    | nil => exact fun s h => h
    | cons a l ih => exact fun s h => ih _ (h.step a)
  exact this l {} inv_init

end Verif.Ctx
