import Verif.Model.QueueLife
import Verif.Lemma.Common

/-! Lemmas on the life of queues (C61). -/

namespace Verif.QueueLife

theorem cput_queues (s : St) : (cput s).queues = s.queues := by unfold cput; simp only []; split <;> rfl
theorem cput_list (s : St) : (cput s).list = s.list := by unfold cput; simp only []; split <;> rfl
theorem cput_frozen (s : St) : (cput s).frozen = s.frozen := by unfold cput; simp only []; split <;> rfl
theorem cput_lock (s : St) : (cput s).lock = s.lock := by unfold cput; simp only []; split <;> rfl
theorem cput_crefs (s : St) : (cput s).crefs = s.crefs - 1 := by unfold cput; simp only []; split <;> rfl
theorem cput_cuser (s : St) : (cput s).cuser = s.cuser := by unfold cput; simp only []; split <;> rfl
theorem cput_mngt (s : St) : (cput s).mngt = s.mngt := by unfold cput; simp only []; split <;> rfl
theorem cput_spins (s : St) : (cput s).spins = s.spins := by unfold cput; simp only []; split <;> rfl
theorem cput_cuts (s : St) : (cput s).cuts = s.cuts := by unfold cput; simp only []; split <;> rfl
theorem cput_next (s : St) : (cput s).next = s.next := by unfold cput; simp only []; split <;> rfl
theorem cput_stops (s : St) : (cput s).stops = s.stops := by unfold cput; simp only []; split <;> rfl
theorem cput_lost (s : St) : (cput s).lost = s.lost := by unfold cput; simp only []; split <;> rfl
theorem cput_bad (s : St) : (cput s).bad = s.bad := by unfold cput; simp only []; split <;> rfl

theorem cput_live (s : St) : (cput s).live = (s.live && !(s.frozen && s.crefs - 1 == 0)) := by
  unfold cput; simp only []
  split
  · rename_i h; simp [h]
  · rename_i h; simp [h]

/-- The queue at an address, taken out. -/
theorem perm_out {l : List Q} {q : Q} (nd : (l.map Q.addr).Nodup) (hq : q ∈ l) :
    l.Perm (q :: l.filter (fun x => x.addr != q.addr)) := by
  induction l with
  | nil => simp at hq
  | cons x l ih =>
    simp only [List.map_cons, List.nodup_cons] at nd
    rcases List.mem_cons.1 hq with rfl | hm
    · have : l.filter (fun x => x.addr != q.addr) = l := by
        apply List.filter_eq_self.2
        intro y hy
        have : y.addr ≠ q.addr := fun e => nd.1 (e ▸ List.mem_map_of_mem hy)
        simpa using this
      simp [this]
    · have hne : x.addr ≠ q.addr := fun e => nd.1 (e ▸ List.mem_map_of_mem hm)
      rw [List.filter_cons_of_pos (by simpa using hne)]
      exact (List.Perm.cons x (ih nd.2 hm)).trans (List.Perm.swap ..)

theorem at?_some {s : St} {a : Nat} {q : Q} (h : at? s a = some q) : q ∈ s.queues ∧ q.addr = a := by
  unfold at? at h
  exact ⟨List.mem_of_find?_eq_some h, by simpa using List.find?_some h⟩

theorem at?_none {s : St} {a : Nat} (h : at? s a = none) : a ∉ s.queues.map Q.addr := by
  unfold at? at h
  intro hm
  obtain ⟨q, hq, rfl⟩ := List.mem_map.1 hm
  exact (by simpa using List.find?_eq_none.1 h q hq : False)

theorem same_addr {l : List Q} {p q : Q} (nd : (l.map Q.addr).Nodup) (hp : p ∈ l) (hq : q ∈ l)
    (e : p.addr = q.addr) : p = q := by
  induction l with
  | nil => simp at hp
  | cons x l ih =>
    simp only [List.map_cons, List.nodup_cons] at nd
    rcases List.mem_cons.1 hp with rfl | hp'
    · rcases List.mem_cons.1 hq with rfl | hq
      · rfl
      · exact absurd (e ▸ List.mem_map_of_mem hq) nd.1
    · rcases List.mem_cons.1 hq with rfl | hq
      · exact absurd (e ▸ List.mem_map_of_mem hp') nd.1
      · exact ih nd.2 hp' hq

theorem at?_mem {s : St} {q : Q} (nd : (s.queues.map Q.addr).Nodup) (h : q ∈ s.queues) :
    at? s q.addr = some q := by
  cases hf : at? s q.addr with
  | none => exact absurd (List.mem_map_of_mem h) (at?_none hf)
  | some p =>
    have := at?_some hf
    rw [same_addr nd this.1 h this.2]

theorem at?_iff {s : St} {a : Nat} {q : Q} (nd : (s.queues.map Q.addr).Nodup) :
    at? s a = some q ↔ q ∈ s.queues ∧ q.addr = a := by
  constructor
  · exact at?_some
  · rintro ⟨h, rfl⟩
    exact at?_mem nd h

/-- Counters and serial numbers, whatever callers do. -/
structure InvG (s : St) : Prop where
  nd : (s.queues.map Q.addr).Nodup
  pos : ∀ q ∈ s.queues, 1 ≤ q.refs
  cnt : s.crefs = (if s.frozen then 0 else 1) + s.queues.length + s.cuser
  liv : s.live = !(s.frozen && s.crefs == 0)
  spn : s.spins = s.queues.length + s.lost
  ser : (s.queues.map Q.ser ++ s.stops).Nodup
  rng : ∀ k, k ∈ s.queues.map Q.ser ++ s.stops ↔ k < s.next
  lck : s.lock = !s.frozen

theorem InvG.init {s : St} (h : Init s) : InvG s := by
  subst h
  exact ⟨by simp, by simp, by simp, by simp, by simp, by simp, by simp, by simp⟩

/-- A change of references only. -/
theorem InvG.refs {s : St} (i : InvG s) (f : Q → Q) (ha : ∀ q, (f q).addr = q.addr) (hs : ∀ q, (f q).ser = q.ser)
    (hp : ∀ q ∈ s.queues, 1 ≤ (f q).refs) : InvG { s with queues := s.queues.map f } := by
  have ea : (s.queues.map f).map Q.addr = s.queues.map Q.addr := by
    rw [List.map_map]; exact List.map_congr_left fun q _ => ha q
  have es : (s.queues.map f).map Q.ser = s.queues.map Q.ser := by
    rw [List.map_map]; exact List.map_congr_left fun q _ => hs q
  refine ⟨by simp only [ea]; exact i.nd, ?_, by simpa using i.cnt, i.liv, by simpa using i.spn,
    by simp only [es]; exact i.ser, by simp only [es]; exact i.rng, i.lck⟩
  intro q hq
  obtain ⟨p, hp', rfl⟩ := List.mem_map.1 hq
  exact hp p hp'

theorem InvG.destroy {s : St} (i : InvG s) {q : Q} (hq : q ∈ s.queues) : InvG (destroy s q) := by
  have pm := perm_out i.nd hq
  have hl := pm.length_eq
  simp only [List.length_cons] at hl
  have pa := (pm.map Q.addr).nodup_iff.1 i.nd
  have ps : (s.queues.map Q.ser ++ s.stops).Perm
      ((s.queues.filter (fun x => x.addr != q.addr)).map Q.ser ++ q.ser :: s.stops) :=
    ((pm.map Q.ser).append_right s.stops).trans List.perm_middle.symm
  have key : ∀ t : St, t.queues = s.queues.filter (fun x => x.addr != q.addr) → t.frozen = s.frozen →
      t.lock = s.lock → t.crefs = s.crefs → t.cuser = s.cuser → t.live = s.live → t.spins = s.spins - 1 →
      t.lost = s.lost → t.stops = q.ser :: s.stops → t.next = s.next → InvG (cput t) := by
    intro t h1 h2 h3 h4 h5 h6 h7 h8 h9 h10
    have c := i.cnt
    refine ⟨?_, ?_, ?_, ?_, ?_, ?_, ?_, ?_⟩
    · rw [cput_queues, h1]; simp only [List.map_cons, List.nodup_cons] at pa; exact pa.2
    · rw [cput_queues, h1]; intro p hp; exact i.pos p ((List.mem_filter.1 hp).1)
    · rw [cput_queues, cput_crefs, cput_frozen, cput_cuser, h1, h2, h4, h5]; omega
    · rw [cput_live, cput_frozen, cput_crefs, h2, h4, h6, i.liv]
      have : (s.crefs == 0) = false := by simp; omega
      simp [this]
    · rw [cput_queues, cput_spins, cput_lost, h1, h7, h8, i.spn]; omega
    · rw [cput_queues, cput_stops, h1, h9]; exact ps.nodup_iff.1 i.ser
    · intro k; rw [cput_queues, cput_stops, cput_next, h1, h9, h10, ← ps.mem_iff]; exact i.rng k
    · rw [cput_lock, cput_frozen, h2, h3]; exact i.lck
  unfold QueueLife.destroy
  simp only []
  split
  · exact key _ rfl rfl rfl rfl rfl rfl rfl rfl rfl rfl
  · exact key _ rfl rfl rfl rfl rfl rfl rfl rfl rfl rfl

theorem InvG.put {s : St} (i : InvG s) (a : Nat) : InvG (put s a) := by
  unfold QueueLife.put
  cases h : at? s a with
  | none => exact ⟨i.nd, i.pos, i.cnt, i.liv, i.spn, i.ser, i.rng, i.lck⟩
  | some q =>
    have ⟨hq, ha⟩ := at?_some h
    simp only []
    split
    · rename_i hr
      apply i.refs
      · intro p; split <;> rfl
      · intro p; split <;> rfl
      · intro p hp
        split
        · rename_i e
          have := same_addr i.nd hp hq (e.trans ha.symm)
          subst this
          show 1 ≤ p.refs - 1
          omega
        · exact i.pos p hp
    · exact i.destroy hq

theorem destroy_queues (s : St) (q : Q) :
    (destroy s q).queues = s.queues.filter (fun x => x.addr != q.addr) := by
  unfold destroy; simp only [cput_queues]; split <;> rfl
theorem destroy_stops (s : St) (q : Q) : (destroy s q).stops = q.ser :: s.stops := by
  unfold destroy; simp only [cput_stops]; split <;> rfl
theorem destroy_mngt_ptr (s : St) (q : Q) : (destroy s q).mngt = s.mngt := by
  unfold destroy; simp only [cput_mngt]; split <;> rfl
theorem destroy_frozen (s : St) (q : Q) : (destroy s q).frozen = s.frozen := by
  unfold destroy; simp only [cput_frozen]; split <;> rfl
theorem destroy_cuser (s : St) (q : Q) : (destroy s q).cuser = s.cuser := by
  unfold destroy; simp only [cput_cuser]; split <;> rfl

theorem put_frozen (s : St) (a : Nat) : (put s a).frozen = s.frozen := by
  unfold put
  split
  · rfl
  · split
    · rfl
    · exact destroy_frozen ..

theorem put_mngt_ptr (s : St) (a : Nat) : (put s a).mngt = s.mngt := by
  unfold put
  split
  · rfl
  · split
    · rfl
    · exact destroy_mngt_ptr ..

theorem puts_mngt_ptr (s : St) (l : List Nat) : (l.foldl put s).mngt = s.mngt := by
  induction l generalizing s with
  | nil => rfl
  | cons a l ih => rw [List.foldl_cons, ih, put_mngt_ptr]

theorem InvG.puts {s : St} (i : InvG s) (l : List Nat) : InvG (l.foldl QueueLife.put s) := by
  induction l generalizing s with
  | nil => exact i
  | cons a l ih => exact ih (i.put a)

theorem puts_frozen (s : St) (l : List Nat) : (l.foldl put s).frozen = s.frozen := by
  induction l generalizing s with
  | nil => rfl
  | cons a l ih => rw [List.foldl_cons, ih, put_frozen]

/-- The end of stopping. -/
theorem InvG.last {s : St} (i : InvG s) (h : s.frozen = false) :
    InvG (cput { s with frozen := true, lock := false }) := by
  have c := i.cnt
  have lv := i.liv
  rw [h] at c lv
  refine ⟨by rw [cput_queues]; exact i.nd, by rw [cput_queues]; exact i.pos, ?_, ?_,
    by rw [cput_spins, cput_queues, cput_lost]; exact i.spn, by rw [cput_queues, cput_stops]; exact i.ser,
    by rw [cput_queues, cput_stops, cput_next]; exact i.rng, by rw [cput_lock, cput_frozen]; rfl⟩
  · rw [cput_queues, cput_crefs, cput_frozen, cput_cuser]
    simp at c ⊢
    omega
  · rw [cput_live, cput_frozen, cput_crefs]
    simp at lv
    simp [lv]

/-- A reference taken and given back. -/
theorem cput_back {s : St} (h : s.frozen = false) : cput { s with crefs := s.crefs + 1 } = s := by
  cases s; simp at h; subst h; simp [cput]

theorem InvG.new {s : St} (i : InvG s) (hf : s.frozen = false) {a : Nat} (ha : at? s a = none) (m : Bool)
    {t : St} (h1 : t.queues = ⟨a, 1, s.next, m⟩ :: s.queues) (h2 : t.frozen = s.frozen) (h3 : t.lock = s.lock)
    (h4 : t.crefs = s.crefs + 1) (h5 : t.cuser = s.cuser) (h6 : t.live = s.live) (h7 : t.spins = s.spins + 1)
    (h8 : t.lost = s.lost) (h9 : t.stops = s.stops) (h10 : t.next = s.next + 1) : InvG t := by
  have c := i.cnt
  have lv := i.liv
  refine ⟨?_, ?_, ?_, ?_, ?_, ?_, ?_, ?_⟩
  · rw [h1]; exact List.nodup_cons.2 ⟨at?_none ha, i.nd⟩
  · rw [h1]; intro q hq
    rcases List.mem_cons.1 hq with rfl | hq
    · exact Nat.le_refl 1
    · exact i.pos q hq
  · rw [h1, h2, h4, h5, c]; simp only [List.length_cons]; omega
  · rw [h2, h6, lv, hf]; simp
  · rw [h1, h7, h8, i.spn]; simp only [List.length_cons]; omega
  · rw [h1, h9]
    simp only [List.map_cons, List.cons_append]
    refine List.nodup_cons.2 ⟨fun hm => ?_, i.ser⟩
    exact Nat.lt_irrefl _ ((i.rng _).1 hm)
  · intro k
    rw [h1, h9, h10]
    simp only [List.map_cons, List.cons_append, List.mem_cons, i.rng k]
    omega
  · rw [h2, h3]; exact i.lck

/-- A queue created and lost. -/
theorem InvG.lose {s : St} (i : InvG s) (n m : Nat) (h : n = s.spins + 1) (h' : m = s.lost + 1) :
    InvG { s with spins := n, lost := m } :=
  ⟨i.nd, i.pos, i.cnt, i.liv, by show n = s.queues.length + m; rw [h, h', i.spn]; omega, i.ser, i.rng, i.lck⟩

/-- What creating does. -/
theorem create_cases (s : St) (a : Nat) (al sp cu : Bool) :
    (s.frozen = true ∧ create s a al sp cu = (s, false)) ∨
    (s.frozen = false ∧ (al && sp) = false ∧ create s a al sp cu = (s, false)) ∨
    (s.frozen = false ∧ (al && sp) = true ∧ cu = false ∧
      create s a al sp cu = ({ s with spins := s.spins + 1, lost := s.lost + 1 }, false)) ∨
    (s.frozen = false ∧ (al && sp && cu) = true ∧
      create s a al sp cu = ({ s with crefs := s.crefs + 1, spins := s.spins + 1, list := a :: s.list
                                      queues := ⟨a, 1, s.next, false⟩ :: s.queues, cuts := s.cuts + 1
                                      next := s.next + 1 }, true)) := by
  obtain ⟨lv, f, lk, c, u, qs, l, m, x, y, n, st, lo, bd⟩ := s
  cases f <;> cases al <;> cases sp <;> cases cu <;> simp [create, cput]

theorem createMngt_cases (s : St) (a : Nat) (al sp : Bool) :
    ((s.mngt.isSome || s.frozen || !al || !sp) = true ∧ createMngt s a al sp = (s, false)) ∨
    (s.mngt = none ∧ s.frozen = false ∧ (al && sp) = true ∧
      createMngt s a al sp = ({ s with crefs := s.crefs + 1, spins := s.spins + 1, mngt := some a
                                       queues := ⟨a, 1, s.next, true⟩ :: s.queues, next := s.next + 1 }, true)) := by
  obtain ⟨lv, f, lk, c, u, qs, l, m, x, y, n, st, lo, bd⟩ := s
  cases m <;> cases f <;> cases al <;> cases sp <;> simp [createMngt, cput]

theorem InvG.step {s t : St} (i : InvG s) (h : Step s t) : InvG t := by
  obtain ⟨o, hc, rfl⟩ := h
  cases o with
  | create a al sp cu =>
    show InvG (create s a al sp cu).1
    rcases create_cases s a al sp cu with ⟨_, e⟩ | ⟨_, _, e⟩ | ⟨_, _, _, e⟩ | ⟨hf, _, e⟩ <;> rw [e]
    · exact i
    · exact i
    · exact i.lose _ _ rfl rfl
    · exact i.new hf hc.2 false rfl rfl rfl rfl rfl rfl rfl rfl rfl rfl
  | createMngt a al sp =>
    show InvG (createMngt s a al sp).1
    rcases createMngt_cases s a al sp with ⟨_, e⟩ | ⟨_, hf, _, e⟩ <;> rw [e]
    · exact i
    · exact i.new hf hc.2 true rfl rfl rfl rfl rfl rfl rfl rfl rfl rfl
  | get a =>
    apply i.refs
    · intro p; split <;> rfl
    · intro p; split <;> rfl
    · intro p hp
      have := i.pos p hp
      split
      · show 1 ≤ p.refs + 1; omega
      · exact this
  | put a => exact i.put a
  | cget =>
    show InvG (if s.frozen then s else { s with crefs := s.crefs + 1, cuser := s.cuser + 1 })
    split
    · exact i
    · rename_i hf
      have hf : s.frozen = false := by simpa using hf
      refine ⟨i.nd, i.pos, ?_, ?_, i.spn, i.ser, i.rng, i.lck⟩
      · have := i.cnt
        show s.crefs + 1 = (if s.frozen then 0 else 1) + s.queues.length + (s.cuser + 1)
        omega
      · have := i.liv
        rw [hf] at this
        simp [this, hf]
  | cput =>
    have hc : 0 < s.cuser := hc
    have c := i.cnt
    show InvG (QueueLife.cput { s with cuser := s.cuser - 1 })
    refine ⟨by rw [cput_queues]; exact i.nd, by rw [cput_queues]; exact i.pos, ?_, ?_,
      by rw [cput_spins, cput_queues, cput_lost]; exact i.spn, by rw [cput_queues, cput_stops]; exact i.ser,
      by rw [cput_queues, cput_stops, cput_next]; exact i.rng, by rw [cput_lock, cput_frozen]; exact i.lck⟩
    · rw [cput_queues, cput_crefs, cput_frozen, cput_cuser]
      show s.crefs - 1 = (if s.frozen then 0 else 1) + s.queues.length + (s.cuser - 1)
      omega
    · rw [cput_live, cput_frozen, cput_crefs]
      show (s.live && !(s.frozen && s.crefs - 1 == 0)) = !(s.frozen && s.crefs - 1 == 0)
      rw [i.liv]
      have : (s.crefs == 0) = false := by simp; omega
      simp [this]
  | stop =>
    exact (i.puts s.list).last (by rw [puts_frozen]; exact hc)

theorem InvG.reach {s : St} (h : Reach Init Step s) : InvG s :=
  Reach.inv (P := InvG) (fun _ h => InvG.init h) (fun _ _ i h => i.step h) s h

/-- The list of queues, when the caller keeps the rules. -/
structure InvL (s : St) : Prop where
  lst : s.list = (s.queues.filter (fun q => !q.mngt)).map Q.addr
  cut : s.cuts = s.list.length
  mq : ∀ q ∈ s.queues, q.mngt = true → s.mngt = some q.addr
  mp : ∀ a, s.mngt = some a → s.frozen = false → ∃ q ∈ s.queues, q.addr = a ∧ q.mngt = true
  frz : s.frozen = true → ∀ q ∈ s.queues, q.mngt = true
  ok : s.bad = false

/-- The rules: the management queue is not put for the last time before the cache is stopped, nobody but its
creator has a reference to an I/O queue when the cache is stopped. -/
def Rules (s : St) : Op → Prop
  | .put a => ∀ q, at? s a = some q → q.mngt = true → q.refs = 1 → s.frozen = true
  | .stop => ∀ q ∈ s.queues, q.mngt = false → q.refs = 1
  | _ => True

/-- Steps that keep the rules. -/
def GStep (s t : St) : Prop := ∃ o, Can s o ∧ Rules s o ∧ t = step s o

theorem GStep.step {s t : St} (h : GStep s t) : Step s t := by
  obtain ⟨o, a, _, c⟩ := h
  exact ⟨o, a, c⟩

theorem InvL.init {s : St} (h : Init s) : InvL s := by
  subst h
  exact ⟨rfl, rfl, by simp, by simp, by simp, rfl⟩

theorem InvL.refs {s : St} (i : InvL s) (f : Q → Q) (ha : ∀ q, (f q).addr = q.addr)
    (hm : ∀ q, (f q).mngt = q.mngt) : InvL { s with queues := s.queues.map f } := by
  refine ⟨?_, i.cut, ?_, ?_, ?_, i.ok⟩
  · show s.list = ((s.queues.map f).filter (fun q => !q.mngt)).map Q.addr
    rw [i.lst, List.filter_map, List.map_map]
    have e1 : (fun q : Q => !q.mngt) ∘ f = fun q => !q.mngt := by funext q; simp [hm]
    have e2 : Q.addr ∘ f = Q.addr := by funext q; simp [ha]
    rw [e1, e2]
  · intro q hq h
    obtain ⟨p, hp, rfl⟩ := List.mem_map.1 hq
    show s.mngt = _
    rw [ha]; exact i.mq p hp (by rw [← hm]; exact h)
  · intro a h h'
    obtain ⟨q, hq, e, e'⟩ := i.mp a h h'
    exact ⟨f q, List.mem_map_of_mem hq, by rw [ha]; exact e, by rw [hm]; exact e'⟩
  · intro h q hq
    obtain ⟨p, hp, rfl⟩ := List.mem_map.1 hq
    rw [hm]; exact i.frz h p hp

theorem filter_comm (l : List Q) (a : Nat) :
    ((l.filter (fun q => !q.mngt)).map Q.addr).filter (fun b => b != a) =
      ((l.filter (fun x => x.addr != a)).filter (fun q => !q.mngt)).map Q.addr := by
  induction l with
  | nil => rfl
  | cons x l ih =>
    by_cases h1 : x.mngt = true <;> by_cases h2 : x.addr = a
    · simp [h1, h2]; simpa using ih
    · simp [h1, h2]; simpa using ih
    · simp [h1, h2]; simpa using ih
    · simp [h1, h2]; simpa using ih

/-- The I/O queue at an address is not taken for the management queue. -/
theorem InvL.io_not {s : St} (g : InvG s) (i : InvL s) {q : Q} (hq : q ∈ s.queues) (hm : q.mngt = false) :
    s.frozen = false ∧ s.mngt ≠ some q.addr := by
  have hf : s.frozen = false := by
    cases h : s.frozen with
    | false => rfl
    | true => have := i.frz h q hq; rw [hm] at this; cases this
  refine ⟨hf, fun e => ?_⟩
  obtain ⟨p, hp, ea, em⟩ := i.mp _ e hf
  rw [same_addr g.nd hp hq ea, hm] at em
  cases em

/-- The end of an I/O queue. -/
theorem destroy_io {s : St} (g : InvG s) (i : InvL s) {q : Q} (hq : q ∈ s.queues) (hm : q.mngt = false) :
    InvL (destroy s q) ∧ (destroy s q).list = s.list.filter (fun b => b != q.addr) ∧
      (destroy s q).queues = s.queues.filter (fun x => x.addr != q.addr) ∧
      (destroy s q).stops = q.ser :: s.stops := by
  obtain ⟨hf, hn⟩ := i.io_not g hq hm
  have e : destroy s q = cput { s with stops := q.ser :: s.stops, bad := s.bad || !s.lock
                                       list := s.list.filter (fun b => b != q.addr), cuts := s.cuts - 1
                                       spins := s.spins - 1
                                       queues := s.queues.filter (fun x => x.addr != q.addr) } := by
    unfold destroy; simp only []; rw [if_neg hn]
  rw [e]
  have lk := g.lck
  rw [hf] at lk
  refine ⟨⟨?_, ?_, ?_, ?_, ?_, ?_⟩, ?_, ?_, ?_⟩
  · rw [cput_list, cput_queues]
    show s.list.filter _ = _
    rw [i.lst]; exact filter_comm _ _
  · rw [cput_list, cput_cuts]
    show s.cuts - 1 = (s.list.filter _).length
    have pm := ((perm_out g.nd hq).filter (fun q => !q.mngt)).length_eq
    rw [List.filter_cons_of_pos (by simp [hm])] at pm
    simp only [List.length_cons] at pm
    have := congrArg List.length (filter_comm s.queues q.addr)
    rw [i.cut, i.lst]
    rw [this]
    simp only [List.length_map]
    omega
  · rw [cput_queues, cput_mngt]
    intro p hp h
    exact i.mq p ((List.mem_filter.1 hp).1) h
  · rw [cput_queues, cput_mngt, cput_frozen]
    intro a h h'
    obtain ⟨p, hp, ea, em⟩ := i.mp a h h'
    refine ⟨p, List.mem_filter.2 ⟨hp, ?_⟩, ea, em⟩
    have : p.addr ≠ q.addr := by
      intro e
      rw [same_addr g.nd hp hq e, hm] at em
      cases em
    simpa using this
  · rw [cput_queues, cput_frozen]
    intro h
    have h : s.frozen = true := h
    rw [hf] at h; cases h
  · rw [cput_bad]
    show (s.bad || !s.lock) = false
    rw [i.ok, lk]; rfl
  · rw [cput_list]
  · rw [cput_queues]
  · rw [cput_stops]

/-- The end of the management queue, after the cache was stopped. -/
theorem destroy_mngt {s : St} (i : InvL s) {q : Q} (hq : q ∈ s.queues) (hm : q.mngt = true)
    (hf : s.frozen = true) : InvL (destroy s q) := by
  have e : destroy s q = cput { s with stops := q.ser :: s.stops, spins := s.spins - 1
                                       queues := s.queues.filter (fun x => x.addr != q.addr) } := by
    unfold destroy; simp only []; rw [if_pos (i.mq q hq hm)]
  have nil : ∀ l : List Q, (∀ q ∈ l, q.mngt = true) → l.filter (fun q => !q.mngt) = [] := by
    intro l h
    apply List.filter_eq_nil_iff.2
    intro x hx
    simp [h x hx]
  rw [e]
  refine ⟨?_, ?_, ?_, ?_, ?_, ?_⟩
  · rw [cput_list, cput_queues]
    show s.list = _
    rw [i.lst, nil _ (i.frz hf), nil _ (fun x hx => i.frz hf x ((List.mem_filter.1 hx).1))]
  · rw [cput_list, cput_cuts]; exact i.cut
  · rw [cput_queues, cput_mngt]; intro p hp h; exact i.mq p ((List.mem_filter.1 hp).1) h
  · rw [cput_frozen]
    intro a _ h
    have h : s.frozen = false := h
    rw [hf] at h; cases h
  · rw [cput_queues, cput_frozen]; intro h p hp; exact i.frz h p ((List.mem_filter.1 hp).1)
  · rw [cput_bad]; exact i.ok

theorem InvL.put {s : St} (g : InvG s) (i : InvL s) {a : Nat} (ha : (at? s a).isSome = true)
    (hr : Rules s (.put a)) : InvL (put s a) := by
  cases h : at? s a with
  | none => rw [h] at ha; cases ha
  | some q =>
    have ⟨hq, _⟩ := at?_some h
    unfold QueueLife.put
    rw [h]
    simp only []
    split
    · apply i.refs
      · intro p; split <;> rfl
      · intro p; split <;> rfl
    · rename_i h1
      cases hm : q.mngt with
      | false => exact (destroy_io g i hq hm).1
      | true =>
        have := g.pos q hq
        exact destroy_mngt i hq hm (hr q h hm (by omega))

/-- Stopping puts all I/O queues. -/
theorem InvL.puts {l : List Nat} {s : St} (g : InvG s) (i : InvL s) (hl : s.list = l)
    (h1 : ∀ q ∈ s.queues, q.mngt = false → q.refs = 1) :
    InvL (l.foldl QueueLife.put s) ∧
      (l.foldl QueueLife.put s).queues = s.queues.filter (fun q => q.mngt) ∧
      (l.foldl QueueLife.put s).list = [] := by
  induction l generalizing s with
  | nil =>
    refine ⟨i, ?_, hl⟩
    have e := i.lst
    rw [hl] at e
    have e := List.map_eq_nil_iff.1 e.symm
    symm
    apply List.filter_eq_self.2
    intro q hq
    have := List.filter_eq_nil_iff.1 e q hq
    simpa using this
  | cons a l ih =>
    have ha : a ∈ s.list := by rw [hl]; exact List.mem_cons_self
    rw [i.lst] at ha
    obtain ⟨q, hq, rfl⟩ := List.mem_map.1 ha
    have ⟨hq, hm⟩ := List.mem_filter.1 hq
    have hm : q.mngt = false := by simpa using hm
    have e : QueueLife.put s q.addr = QueueLife.destroy s q := by
      unfold QueueLife.put
      rw [at?_mem g.nd hq]
      simp [h1 q hq hm]
    obtain ⟨i', el, eq, _⟩ := destroy_io g i hq hm
    have nd : s.list.Nodup := by
      rw [i.lst]
      exact List.Nodup.sublist (List.Sublist.map _ List.filter_sublist) g.nd
    rw [hl, List.nodup_cons] at nd
    rw [List.foldl_cons, e]
    have el' : (QueueLife.destroy s q).list = l := by
      rw [el, hl, List.filter_cons_of_neg (by simp)]
      apply List.filter_eq_self.2
      intro b hb
      have : b ≠ q.addr := fun e => nd.1 (e ▸ hb)
      simpa using this
    have := ih (g.destroy hq) i' el' (by
      rw [eq]; intro p hp h; exact h1 p ((List.mem_filter.1 hp).1) h)
    refine ⟨this.1, ?_, this.2.2⟩
    rw [this.2.1, eq, List.filter_filter]
    apply List.filter_congr
    intro p hp
    cases hpm : p.mngt with
    | false => rfl
    | true =>
      have : p.addr ≠ q.addr := by
        intro e
        rw [same_addr g.nd hp hq e, hm] at hpm
        cases hpm
      simpa using this

theorem InvL.step {s t : St} (g : InvG s) (i : InvL s) (h : GStep s t) : InvL t := by
  obtain ⟨o, hc, hr, rfl⟩ := h
  cases o with
  | create a al sp cu =>
    show InvL (create s a al sp cu).1
    rcases create_cases s a al sp cu with ⟨_, e⟩ | ⟨_, _, e⟩ | ⟨_, _, _, e⟩ | ⟨hf, _, e⟩ <;> rw [e]
    · exact i
    · exact i
    · exact ⟨i.lst, i.cut, i.mq, i.mp, i.frz, i.ok⟩
    · refine ⟨?_, ?_, ?_, ?_, ?_, i.ok⟩
      · show a :: s.list = _
        rw [i.lst]; simp
      · show s.cuts + 1 = (a :: s.list).length
        rw [i.cut]; rfl
      · intro q hq h
        rcases List.mem_cons.1 hq with rfl | hq
        · cases h
        · exact i.mq q hq h
      · intro b h h'
        obtain ⟨q, hq, r⟩ := i.mp b h h'
        exact ⟨q, List.mem_cons_of_mem _ hq, r⟩
      · intro h
        have h : s.frozen = true := h
        rw [hf] at h; cases h
  | createMngt a al sp =>
    show InvL (createMngt s a al sp).1
    rcases createMngt_cases s a al sp with ⟨_, e⟩ | ⟨hn, hf, _, e⟩ <;> rw [e]
    · exact i
    · refine ⟨?_, i.cut, ?_, ?_, ?_, i.ok⟩
      · show s.list = _
        rw [i.lst]; simp
      · intro q hq h
        rcases List.mem_cons.1 hq with rfl | hq
        · rfl
        · have := i.mq q hq h
          rw [hn] at this; cases this
      · intro b h _
        have h : some a = some b := h
        cases h
        exact ⟨_, List.mem_cons_self, rfl, rfl⟩
      · intro h
        have h : s.frozen = true := h
        rw [hf] at h; cases h
  | get a =>
    apply i.refs
    · intro p; split <;> rfl
    · intro p; split <;> rfl
  | put a => exact i.put g hc hr
  | cget =>
    show InvL (if s.frozen then s else { s with crefs := s.crefs + 1, cuser := s.cuser + 1 })
    split
    · exact i
    · exact ⟨i.lst, i.cut, i.mq, i.mp, i.frz, i.ok⟩
  | cput =>
    show InvL (QueueLife.cput { s with cuser := s.cuser - 1 })
    refine ⟨?_, ?_, ?_, ?_, ?_, ?_⟩
    · rw [cput_list, cput_queues]; exact i.lst
    · rw [cput_list, cput_cuts]; exact i.cut
    · rw [cput_queues, cput_mngt]; exact i.mq
    · rw [cput_queues, cput_mngt, cput_frozen]; exact i.mp
    · rw [cput_queues, cput_frozen]; exact i.frz
    · rw [cput_bad]; exact i.ok
  | stop =>
    obtain ⟨j, eq, _⟩ := InvL.puts g i rfl hr
    show InvL (QueueLife.cput { s.list.foldl QueueLife.put s with frozen := true, lock := false })
    refine ⟨?_, ?_, ?_, ?_, ?_, ?_⟩
    · rw [cput_list, cput_queues]; exact j.lst
    · rw [cput_list, cput_cuts]; exact j.cut
    · rw [cput_queues, cput_mngt]; exact j.mq
    · rw [cput_frozen]; intro a _ h; cases h
    · rw [cput_queues]
      intro _ q hq
      have hq : q ∈ (s.list.foldl QueueLife.put s).queues := hq
      rw [eq] at hq
      exact (List.mem_filter.1 hq).2
    · rw [cput_bad]; exact j.ok

theorem GInv.reach {s : St} (h : Reach Init GStep s) : InvG s ∧ InvL s :=
  Reach.inv (P := fun s => InvG s ∧ InvL s) (fun _ h => ⟨InvG.init h, InvL.init h⟩)
    (fun _ _ i h => ⟨i.1.step h.step, i.2.step i.1 h⟩) s h

end Verif.QueueLife
