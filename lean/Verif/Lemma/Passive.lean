import Verif.Model.Passive

namespace Verif.Passive

theorem upd_self {α : Type} (f : Nat → α) (i : Nat) (a : α) : upd f i a i = a := by simp [upd]

theorem upd_ne {α : Type} (f : Nat → α) {i x : Nat} (a : α) (h : x ≠ i) : upd f i a x = f x := by
  simp [upd, h]

/-- what the caller gave. -/
def Req.par (r : Req) : Par := ⟨r.read, r.addr, r.bytes, r.noMem, r.data⟩

theorem par_eq {r r' : Req} (h : r.par = r'.par) : r.read = r'.read ∧ r.addr = r'.addr ∧
    r.bytes = r'.bytes ∧ r.noMem = r'.noMem ∧ r.data = r'.data := by
  unfold Req.par at h
  injection h with h1 h2 h3 h4 h5
  exact ⟨h1, h2, h3, h4, h5⟩

theorem start_par {r r' : Req} (h : r.par = r'.par) : r.start = r'.start := by
  obtain ⟨_, h2, h3, _, _⟩ := par_eq h
  unfold Req.start
  rw [h2]

theorem count_par {r r' : Req} (h : r.par = r'.par) : r.count = r'.count := by
  obtain ⟨_, h2, h3, _, _⟩ := par_eq h
  unfold Req.count
  rw [h3]

theorem plan_par {r r' : Req} (h : r.par = r'.par) (c : Cfg) : r.plan c = r'.plan c := by
  have h1 := start_par h
  have h2 := count_par h
  unfold Req.plan Req.planOf Req.last
  rw [h1, h2]

theorem entries_par {r r' : Req} (h : r.par = r'.par) (c : Cfg) : r.entries c = r'.entries c := by
  have h1 := start_par h
  have h2 := count_par h
  unfold Req.entries
  rw [h1, h2]

theorem check_par {r r' : Req} (h : r.par = r'.par) (c : Cfg) : r.check c = r'.check c := by
  obtain ⟨g1, g2, g3, g4, _⟩ := par_eq h
  have h1 := start_par h
  unfold Req.check
  rw [g1, g2, g3, g4, h1]

/-! ## geometry -/

/-- containers apart and inside the metadata, whose size leaves room in 32 bits. -/
structure Cfg.Ok (c : Cfg) : Prop where
  sb : c.sb.offset + c.sb.pages ≤ c.total
  coll : c.coll.offset + c.coll.pages ≤ c.total
  apart : c.sb.offset + c.sb.pages ≤ c.coll.offset ∨ c.coll.offset + c.coll.pages ≤ c.sb.offset
  small : c.total + 8192 ≤ 2 ^ 32
  sbPos : 0 < c.sb.pages
  collPos : 0 < c.coll.pages

theorem entry_of {c : Cfg} (hc : c.Ok) {k p : Nat} (hk : k < 2) (hp : p < (c.seg k).pages) :
    c.entry ((c.seg k).offset + p) = some (c.first k + p) := by
  have h1 := hc.sb
  have h2 := hc.coll
  have h3 := hc.apart
  have h4 := hc.small
  unfold Cfg.entry
  have hmod : ((c.seg k).offset + p) % 2 ^ 32 = (c.seg k).offset + p := by
    refine Nat.mod_eq_of_lt ?_
    unfold Cfg.seg at hp ⊢
    split at hp <;> rename_i e <;> simp only [e, if_true, if_false] <;> omega
  simp only [hmod]
  unfold Seg.has
  have : k = 0 ∨ k = 1 := by omega
  rcases this with rfl | rfl
  · have hp : p < c.sb.pages := hp
    have e0 : (c.seg 0).offset = c.sb.offset := rfl
    rw [e0]
    rw [if_pos (by simp; omega)]
    congr 1
    omega
  · have hp : p < c.coll.pages := hp
    have e0 : (c.seg 1).offset = c.coll.offset := rfl
    rw [e0]
    rw [if_neg (by simp; omega), if_pos (by simp; omega)]
    congr 1
    omega

theorem entry_some {c : Cfg} (hc : c.Ok) {page e : Nat} (hp : page < 2 ^ 32) (h : c.entry page = some e) :
    ∃ k p, k < 2 ∧ p < (c.seg k).pages ∧ page = (c.seg k).offset + p ∧ e = c.first k + p := by
  unfold Cfg.entry at h
  simp only [Nat.mod_eq_of_lt hp, Seg.has, decide_eq_true_eq] at h
  split at h
  · rename_i h1
    exact ⟨0, page - c.sb.offset, by omega, by show _ < c.sb.pages; omega, by show _ = c.sb.offset + _; omega,
      (Option.some.inj h).symm⟩
  · split at h
    · rename_i h1
      exact ⟨1, page - c.coll.offset, by omega, by show _ < c.coll.pages; omega,
        by show _ = c.coll.offset + _; omega, (Option.some.inj h).symm⟩
    · cases h

/-- `check` passed: aligned, short, begins in the metadata. -/
theorem check_none {c : Cfg} {r : Req} (h : r.check c = none) : r.read = false ∧ r.start < c.total ∧
    r.addr % pageSize = 0 ∧ r.bytes % pageSize = 0 ∧ r.bytes ≤ 32 * 2 ^ 20 ∧ r.noMem = false := by
  unfold Req.check at h
  split at h; · cases h
  rename_i h1
  split at h; · cases h
  rename_i h2
  split at h; · cases h
  rename_i h3
  split at h; · cases h
  rename_i h4
  split at h; · cases h
  rename_i h5
  refine ⟨by simpa using h1, by omega, ?_, ?_, by omega, by simpa using h5⟩
  · exact Classical.byContradiction fun h => h3 (Or.inl h)
  · exact Classical.byContradiction fun h => h3 (Or.inr h)

theorem count_of {c : Cfg} {r : Req} (h : r.check c = none) : r.count * pageSize = r.bytes ∧ r.count ≤ 8192 := by
  obtain ⟨_, _, _, h4, h5, _⟩ := check_none h
  unfold Req.count toPages
  unfold pageSize at *
  rw [Nat.mod_eq_of_lt (by omega)]
  omega

theorem last_of {c : Cfg} (hc : c.Ok) {r : Req} (h : r.check c = none) (hb : 0 < r.bytes) :
    r.last = r.start + r.count - 1 ∧ 0 < r.count := by
  obtain ⟨_, h2, _, h4, h5, _⟩ := check_none h
  obtain ⟨h6, h7⟩ := count_of h
  have := hc.small
  have hpos : 0 < r.count := by
    rcases Nat.eq_zero_or_pos r.count with e | e
    · rw [e] at h6; omega
    · exact e
  refine ⟨?_, hpos⟩
  unfold Req.last
  omega

theorem mem_planOf {c : Cfg} (hc : c.Ok) {r : Req} (h : r.check c = none) (hb : 0 < r.bytes) {k : Nat}
    (hk : k < 2) {g p b : Nat} : (g, p, b) ∈ r.planOf c k ↔ g = k ∧ p < (c.seg k).pages ∧
      r.start ≤ (c.seg k).offset + p ∧ (c.seg k).offset + p < r.start + r.count ∧
      b = (c.seg k).offset + p - r.start := by
  obtain ⟨hl, hpos⟩ := last_of hc h hb
  have hsp : 0 < (c.seg k).pages := by
    have : k = 0 ∨ k = 1 := by omega
    rcases this with rfl | rfl
    · exact hc.sbPos
    · exact hc.collPos
  unfold Req.planOf
  simp only [hl]
  generalize c.seg k = S at *
  split
  · rename_i h1
    constructor
    · intro hh; cases hh
    · rintro ⟨_, _, _, _, _⟩; omega
  · rename_i h1
    simp only [List.mem_map, List.mem_range, Prod.mk.injEq]
    constructor
    · rintro ⟨t, ht, h2, h3, h4⟩
      refine ⟨h2.symm, ?_, ?_, ?_, ?_⟩ <;> omega
    · rintro ⟨h2, h3, h4, h5, h6⟩
      exact ⟨S.offset + p - max r.start S.offset, by omega, h2.symm, by omega, by omega⟩

theorem mem_plan {c : Cfg} (hc : c.Ok) {r : Req} (h : r.check c = none) (hb : 0 < r.bytes)
    {g p b : Nat} : (g, p, b) ∈ r.plan c ↔ g < 2 ∧ p < (c.seg g).pages ∧
      r.start ≤ (c.seg g).offset + p ∧ (c.seg g).offset + p < r.start + r.count ∧
      b = (c.seg g).offset + p - r.start := by
  unfold Req.plan
  rw [List.mem_append, mem_planOf hc h hb (by omega), mem_planOf hc h hb (by omega)]
  constructor
  · rintro (⟨rfl, h1⟩ | ⟨rfl, h1⟩) <;> exact ⟨by omega, h1⟩
  · rintro ⟨h1, h2⟩
    have : g = 0 ∨ g = 1 := by omega
    rcases this with rfl | rfl
    · exact Or.inl ⟨rfl, h2⟩
    · exact Or.inr ⟨rfl, h2⟩

/-- every page copied is locked. -/
theorem plan_locked {c : Cfg} (hc : c.Ok) {r : Req} (h : r.check c = none) (hb : 0 < r.bytes)
    {g p b : Nat} (hm : (g, p, b) ∈ r.plan c) : c.first g + p ∈ r.entries c := by
  obtain ⟨h1, h2, h3, h4, h5⟩ := (mem_plan hc h hb).1 hm
  unfold Req.entries
  rw [List.mem_filterMap]
  refine ⟨b, by simp; omega, ?_⟩
  rw [h5, show r.start + ((c.seg g).offset + p - r.start) = (c.seg g).offset + p by omega]
  exact entry_of hc h1 h2

/-! ## locks and memory -/

/-- may have lock `e`. -/
def Req.mayHold (c : Cfg) (r : Req) (e : Nat) : Prop :=
  match r.pc with
  | .lock | .copy _ => e ∈ r.entries c
  | .unlock k => ∃ j, k ≤ j ∧ j < r.count ∧ c.entry (r.start + j) = some e
  | _ => False

/-- had all its locks at some time. -/
def Req.begun (c : Cfg) (r : Req) : Prop :=
  match r.pc with
  | .copy _ | .unlock _ => True
  | .over e => e = 0 ∧ r.check c = none
  | _ => False

/-- has copied page `p` of container `g`. -/
def Req.copied (c : Cfg) (r : Req) (g p : Nat) : Prop :=
  match r.pc with
  | .copy k => ∃ j b, j < k ∧ (r.plan c)[j]? = some (g, p, b)
  | .unlock _ => ∃ b, (g, p, b) ∈ r.plan c
  | .over e => e = 0 ∧ r.check c = none ∧ ∃ b, (g, p, b) ∈ r.plan c
  | _ => False

/-- beyond the checks. -/
def Req.gone (c : Cfg) (r : Req) : Prop :=
  match r.pc with
  | .lock | .copy _ | .unlock _ => r.check c = none
  | _ => True

structure InvL (c : Cfg) (ps : Nat → Par) (m0 : Nat → Nat → Nat) (s : St) (seq : Nat → Nat) (n : Nat) : Prop where
  par : ∀ i, (s.req i).par = ps i
  gone : ∀ i, (s.req i).gone c
  own : ∀ e i, s.owner e = some i → (s.req i).mayHold c e
  must : ∀ i k, (s.req i).pc = .copy k → ∀ e ∈ (s.req i).entries c, s.owner e = some i
  memNone : ∀ g p, s.by_ g p = none → s.mem g p = m0 g p
  memSome : ∀ g p i, s.by_ g p = some i → ∃ b, (g, p, b) ∈ (s.req i).plan c ∧ s.mem g p = (s.req i).data b
  lt : ∀ i, (s.req i).begun c → seq i < n
  inj : ∀ i j, (s.req i).begun c → (s.req j).begun c → seq i = seq j → i = j
  byBegun : ∀ g p i, s.by_ g p = some i → (s.req i).begun c
  newest : ∀ i k, (s.req i).pc = .copy k → ∀ g p b, (g, p, b) ∈ (s.req i).plan c → ∀ j,
    s.by_ g p = some j → j = i ∨ seq j < seq i
  kept : ∀ i g p, (s.req i).copied c g p → ∃ j, s.by_ g p = some j ∧ seq i ≤ seq j

theorem init_invL (c : Cfg) (ps : Nat → Par) (m : Nat → Nat → Nat) :
    InvL c ps m (init m ps) (fun _ => 0) 0 := by
  constructor <;> simp [init, Par.req, Req.par, Req.gone, Req.begun, Req.copied]

/-- times given stay, new ones are later. -/
structure Later (c : Cfg) (s s' : St) (seq seq' : Nat → Nat) (n n' : Nat) : Prop where
  le : n ≤ n'
  keep : ∀ j, (s.req j).begun c → (s'.req j).begun c ∧ seq' j = seq j
  new : ∀ j, ¬ (s.req j).begun c → (s'.req j).begun c → n ≤ seq' j

theorem later_of {c : Cfg} {s s' : St} {seq : Nat → Nat} {n : Nat}
    (h : ∀ j, (s'.req j).begun c ↔ (s.req j).begun c) : Later c s s' seq seq n n :=
  ⟨Nat.le_refl _, fun j hj => ⟨(h j).2 hj, rfl⟩, fun j h1 h2 => absurd ((h j).1 h2) h1⟩

theorem Later.trans {c : Cfg} {s t u : St} {f g h : Nat → Nat} {a b d : Nat} (h1 : Later c s t f g a b)
    (h2 : Later c t u g h b d) : Later c s u f h a d := by
  refine ⟨Nat.le_trans h1.le h2.le, fun j hj => ?_, fun j hj hj' => ?_⟩
  · have k1 := h1.keep j hj
    have k2 := h2.keep j k1.1
    exact ⟨k2.1, k2.2.trans k1.2⟩
  · by_cases e : (t.req j).begun c
    · rw [(h2.keep j e).2]; exact h1.new j hj e
    · exact Nat.le_trans h1.le (h2.new j e hj')

theorem moveL {c : Cfg} {ps : Nat → Par} {m0 : Nat → Nat → Nat} {s s' : St} {seq : Nat → Nat} {n : Nat}
    (hs : InvL c ps m0 s seq n) {i : Nat} {r : Req} (hr : s'.req = upd s.req i r) (hm : s'.mem = s.mem)
    (hby : s'.by_ = s.by_) (hpar : r.par = (s.req i).par) (hgone : r.gone c)
    (hown1 : ∀ e j, j ≠ i → (s'.owner e = some j ↔ s.owner e = some j))
    (hown2 : ∀ e, s'.owner e = some i → r.mayHold c e)
    (hmust : ∀ k, r.pc = .copy k → ∀ e ∈ r.entries c, s'.owner e = some i)
    (hbeg : r.begun c ↔ (s.req i).begun c)
    (hcop : ∀ g p, r.copied c g p → (s.req i).copied c g p)
    (hnew : ∀ k, r.pc = .copy k → ∃ k', (s.req i).pc = .copy k') :
    InvL c ps m0 s' seq n ∧ Later c s s' seq seq n n := by
  have hq : ∀ j, j ≠ i → s'.req j = s.req j := fun j hj => by rw [hr, upd_ne _ _ hj]
  have hi : s'.req i = r := by rw [hr, upd_self]
  have hB : ∀ j, (s'.req j).begun c ↔ (s.req j).begun c := by
    intro j
    by_cases e : j = i
    · rw [e, hi]; exact hbeg
    · rw [hq j e]
  have hP : ∀ j, (s'.req j).par = (s.req j).par := by
    intro j
    by_cases e : j = i
    · rw [e, hi]; exact hpar
    · rw [hq j e]
  refine ⟨?_, later_of hB⟩
  constructor
  · intro j; rw [hP j]; exact hs.par j
  · intro j
    by_cases e : j = i
    · rw [e, hi]; exact hgone
    · rw [hq j e]; exact hs.gone j
  · intro e j h
    by_cases e' : j = i
    · subst e'
      rw [hi]; exact hown2 e h
    · rw [hq j e']; exact hs.own e j ((hown1 e j e').1 h)
  · intro j k h e he
    by_cases e' : j = i
    · subst e'
      rw [hi] at h he
      exact hmust k h e he
    · rw [hq j e'] at h he
      exact (hown1 e j e').2 (hs.must j k h e he)
  · intro g p h; rw [hby] at h; rw [hm]; exact hs.memNone g p h
  · intro g p j h
    rw [hby] at h
    obtain ⟨b, h1, h2⟩ := hs.memSome g p j h
    refine ⟨b, by rw [plan_par (hP j)]; exact h1, ?_⟩
    rw [hm, h2, (par_eq (hP j)).2.2.2.2]
  · intro j h; exact hs.lt j ((hB j).1 h)
  · intro j j' h h'; exact hs.inj j j' ((hB j).1 h) ((hB j').1 h')
  · intro g p j h; rw [hby] at h; exact (hB j).2 (hs.byBegun g p j h)
  · intro j k h g p b hpl j' hj'
    rw [hby] at hj'
    rw [plan_par (hP j)] at hpl
    by_cases e' : j = i
    · subst e'
      rw [hi] at h
      obtain ⟨k', hk'⟩ := hnew k h
      exact hs.newest j k' hk' g p b hpl j' hj'
    · rw [hq j e'] at h
      exact hs.newest j k h g p b hpl j' hj'
  · intro j g p h
    rw [hby]
    by_cases e' : j = i
    · subst e'
      rw [hi] at h
      exact hs.kept j g p (hcop g p h)
    · rw [hq j e'] at h
      exact hs.kept j g p h

/-- a request gets its last lock. -/
theorem grantL {c : Cfg} {ps : Nat → Par} {m0 : Nat → Nat → Nat} {s : St} {seq : Nat → Nat} {n : Nat}
    (hs : InvL c ps m0 s seq n) {i : Nat} (hpc : (s.req i).pc = .lock)
    (hall : ∀ e ∈ (s.req i).entries c, s.owner e = some i) :
    InvL c ps m0 { s with req := upd s.req i { s.req i with pc := .copy 0 } } (upd seq i n) (n + 1) ∧
      Later c s { s with req := upd s.req i { s.req i with pc := .copy 0 } } seq (upd seq i n) n (n + 1) := by
  have hnb : ¬ (s.req i).begun c := by unfold Req.begun; rw [hpc]; exact id
  have hq : ∀ j, j ≠ i → (upd s.req i { s.req i with pc := .copy 0 }) j = s.req j := fun j hj => upd_ne _ _ hj
  have hi : (upd s.req i { s.req i with pc := .copy 0 }) i = { s.req i with pc := .copy 0 } := upd_self _ _ _
  have hsq : ∀ j, (s.req j).begun c → upd seq i n j = seq j := by
    intro j hj
    exact upd_ne _ _ (fun e => hnb (e ▸ hj))
  refine ⟨?_, ⟨Nat.le_succ n, fun j hj => ⟨?_, hsq j hj⟩, fun j hj hj' => ?_⟩⟩
  rotate_left
  · show (upd s.req i _ j).begun c
    rw [hq j (fun e => hnb (e ▸ hj))]; exact hj
  · by_cases e : j = i
    · rw [e, upd_self]; exact Nat.le_refl _
    · replace hj' : (upd s.req i { s.req i with pc := .copy 0 } j).begun c := hj'
      rw [hq j e] at hj'
      exact absurd hj' hj
  constructor
  · intro j
    show (upd s.req i { s.req i with pc := .copy 0 } j).par = _
    by_cases e : j = i
    · rw [e, hi]; exact hs.par i
    · rw [hq j e]; exact hs.par j
  · intro j
    show (upd s.req i { s.req i with pc := .copy 0 } j).gone c
    by_cases e : j = i
    · rw [e, hi]
      have := hs.gone i
      unfold Req.gone at this ⊢
      rw [hpc] at this
      exact this
    · rw [hq j e]; exact hs.gone j
  · intro e j h
    show (upd s.req i { s.req i with pc := .copy 0 } j).mayHold c e
    have h1 := hs.own e j h
    by_cases e' : j = i
    · rw [e', hi]
      rw [e'] at h1
      unfold Req.mayHold at h1 ⊢
      rw [hpc] at h1
      exact h1
    · rw [hq j e']; exact h1
  · intro j k h e he
    replace h : (upd s.req i { s.req i with pc := .copy 0 } j).pc = .copy k := h
    replace he : e ∈ (upd s.req i { s.req i with pc := .copy 0 } j).entries c := he
    by_cases e' : j = i
    · subst e'
      rw [hi] at he
      exact hall e he
    · rw [hq j e'] at h he
      exact hs.must j k h e he
  · exact hs.memNone
  · intro g p j h
    obtain ⟨b, h1, h2⟩ := hs.memSome g p j h
    have hj : j ≠ i := fun e => hnb (e ▸ hs.byBegun g p j h)
    refine ⟨b, ?_, ?_⟩
    · show _ ∈ (upd s.req i _ j).plan c
      rw [hq j hj]; exact h1
    · show _ = (upd s.req i _ j).data b
      rw [hq j hj]; exact h2
  · intro j h
    replace h : (upd s.req i { s.req i with pc := .copy 0 } j).begun c := h
    by_cases e' : j = i
    · rw [e', upd_self]; omega
    · rw [hq j e'] at h
      rw [upd_ne _ _ e']
      have := hs.lt j h
      omega
  · intro j j' h h' he
    replace h : (upd s.req i { s.req i with pc := .copy 0 } j).begun c := h
    replace h' : (upd s.req i { s.req i with pc := .copy 0 } j').begun c := h'
    by_cases e1 : j = i
    · by_cases e2 : j' = i
      · rw [e1, e2]
      · rw [hq j' e2] at h'
        rw [e1, upd_self, upd_ne _ _ e2] at he
        have := hs.lt j' h'
        omega
    · rw [hq j e1] at h
      by_cases e2 : j' = i
      · rw [e2, upd_self, upd_ne _ _ e1] at he
        have := hs.lt j h
        omega
      · rw [hq j' e2] at h'
        rw [upd_ne _ _ e1, upd_ne _ _ e2] at he
        exact hs.inj j j' h h' he
  · intro g p j h
    have h1 := hs.byBegun g p j h
    have hj : j ≠ i := fun e => hnb (e ▸ h1)
    show (upd s.req i _ j).begun c
    rw [hq j hj]; exact h1
  · intro j k h g p b hpl j' hj'
    replace h : (upd s.req i { s.req i with pc := .copy 0 } j).pc = .copy k := h
    replace hpl : (g, p, b) ∈ (upd s.req i { s.req i with pc := .copy 0 } j).plan c := hpl
    have h1 := hs.byBegun g p j' hj'
    rw [hsq j' h1]
    by_cases e1 : j = i
    · rw [e1, upd_self]
      exact Or.inr (hs.lt j' h1)
    · rw [hq j e1] at h hpl
      rw [upd_ne _ _ e1]
      exact hs.newest j k h g p b hpl j' hj'
  · intro j g p h
    replace h : (upd s.req i { s.req i with pc := .copy 0 } j).copied c g p := h
    by_cases e1 : j = i
    · rw [e1, hi] at h
      obtain ⟨x, b, hx, _⟩ := h
      omega
    · rw [hq j e1] at h
      obtain ⟨j', h1, h2⟩ := hs.kept j g p h
      refine ⟨j', h1, ?_⟩
      rw [upd_ne _ _ e1, hsq j' (hs.byBegun g p j' h1)]
      exact h2

/-- a page is copied. -/
theorem copyL {c : Cfg} {ps : Nat → Par} {m0 : Nat → Nat → Nat} {s : St} {seq : Nat → Nat} {n : Nat}
    (hc : c.Ok) (hb : ∀ i, 0 < (ps i).bytes)
    (hs : InvL c ps m0 s seq n) {i k g p b : Nat} (hpc : (s.req i).pc = .copy k)
    (hpl : ((s.req i).plan c)[k]? = some (g, p, b)) :
    InvL c ps m0 (s.copyNext i k (some (g, p, b))) seq n ∧
      Later c s (s.copyNext i k (some (g, p, b))) seq seq n n := by
  have hmem : (g, p, b) ∈ (s.req i).plan c := List.mem_of_getElem? hpl
  have hq : ∀ j, j ≠ i → (upd s.req i { s.req i with pc := .copy (k + 1) }) j = s.req j :=
    fun j hj => upd_ne _ _ hj
  have hi : (upd s.req i { s.req i with pc := .copy (k + 1) }) i = { s.req i with pc := .copy (k + 1) } :=
    upd_self _ _ _
  have hB : ∀ j, (upd s.req i { s.req i with pc := .copy (k + 1) } j).begun c ↔ (s.req j).begun c := by
    intro j
    by_cases e : j = i
    · rw [e, hi]; unfold Req.begun; rw [hpc]
    · rw [hq j e]
  have hP : ∀ j, (upd s.req i { s.req i with pc := .copy (k + 1) } j).par = (s.req j).par := by
    intro j
    by_cases e : j = i
    · rw [e, hi]; rfl
    · rw [hq j e]
  have hcheck : ∀ j kk, (s.req j).pc = .copy kk → (s.req j).check c = none := by
    intro j kk h
    have := hs.gone j
    unfold Req.gone at this
    rw [h] at this
    exact this
  have hbytes : ∀ j, 0 < (s.req j).bytes := by
    intro j
    have := hb j
    rw [← hs.par j] at this
    exact this
  have hbi : (s.req i).begun c := by unfold Req.begun; rw [hpc]; trivial
  -- others copying do not have this page
  have hex : ∀ j kk b', (s.req j).pc = .copy kk → (g, p, b') ∈ (s.req j).plan c → j = i := by
    intro j kk b' h1 h2
    have e1 := hs.must j kk h1 _ (plan_locked hc (hcheck j kk h1) (hbytes j) h2)
    have e2 := hs.must i k hpc _ (plan_locked hc (hcheck i k hpc) (hbytes i) hmem)
    rw [e1] at e2
    exact Option.some.inj e2
  unfold St.copyNext
  refine ⟨?_, later_of hB⟩
  constructor
  · intro j; rw [hP j]; exact hs.par j
  · intro j
    show (upd s.req i { s.req i with pc := .copy (k + 1) } j).gone c
    by_cases e : j = i
    · rw [e, hi]; exact hcheck i k hpc
    · rw [hq j e]; exact hs.gone j
  · intro e j h
    show (upd s.req i { s.req i with pc := .copy (k + 1) } j).mayHold c e
    have h1 := hs.own e j h
    by_cases e' : j = i
    · rw [e', hi]
      rw [e'] at h1
      unfold Req.mayHold at h1 ⊢
      rw [hpc] at h1
      exact h1
    · rw [hq j e']; exact h1
  · intro j kk h e he
    replace h : (upd s.req i { s.req i with pc := .copy (k + 1) } j).pc = .copy kk := h
    replace he : e ∈ (upd s.req i { s.req i with pc := .copy (k + 1) } j).entries c := he
    by_cases e' : j = i
    · subst e'
      rw [hi] at he
      exact hs.must j k hpc e he
    · rw [hq j e'] at h he
      exact hs.must j kk h e he
  · intro g' p' h
    simp only [upd2] at h ⊢
    by_cases e : g' = g ∧ p' = p
    · rw [if_pos e] at h; cases h
    · rw [if_neg e] at h ⊢; exact hs.memNone g' p' h
  · intro g' p' j h
    simp only [upd2] at h
    by_cases e : g' = g ∧ p' = p
    · rw [if_pos e] at h
      cases h
      obtain ⟨rfl, rfl⟩ := e
      refine ⟨b, by rw [plan_par (hP _)]; exact hmem, ?_⟩
      simp only [upd2, and_self, if_true]
      rw [(par_eq (hP _)).2.2.2.2]
    · rw [if_neg e] at h
      obtain ⟨b', h1, h2⟩ := hs.memSome g' p' j h
      refine ⟨b', by rw [plan_par (hP _)]; exact h1, ?_⟩
      simp only [upd2]
      rw [if_neg e, (par_eq (hP _)).2.2.2.2]
      exact h2
  · intro j h; exact hs.lt j ((hB j).1 h)
  · intro j j' h h'; exact hs.inj j j' ((hB j).1 h) ((hB j').1 h')
  · intro g' p' j h
    simp only [upd2] at h
    by_cases e : g' = g ∧ p' = p
    · rw [if_pos e] at h; cases h; exact (hB _).2 hbi
    · rw [if_neg e] at h; exact (hB _).2 (hs.byBegun g' p' j h)
  · intro j kk h g' p' b' hpl' j' hj'
    simp only [upd2] at hj'
    rw [plan_par (hP j)] at hpl'
    replace h : (upd s.req i { s.req i with pc := .copy (k + 1) } j).pc = .copy kk := h
    have hjc : ∃ k1, (s.req j).pc = .copy k1 := by
      by_cases e : j = i
      · exact ⟨k, e ▸ hpc⟩
      · rw [hq j e] at h; exact ⟨kk, h⟩
    obtain ⟨k1, hk1⟩ := hjc
    by_cases e : g' = g ∧ p' = p
    · rw [if_pos e] at hj'
      cases hj'
      obtain ⟨rfl, rfl⟩ := e
      exact Or.inl (hex j k1 b' hk1 hpl').symm
    · rw [if_neg e] at hj'
      exact hs.newest j k1 hk1 g' p' b' hpl' j' hj'
  · intro j g' p' h
    replace h : (upd s.req i { s.req i with pc := .copy (k + 1) } j).copied c g' p' := h
    simp only [upd2]
    by_cases e : g' = g ∧ p' = p
    · rw [if_pos e]
      obtain ⟨rfl, rfl⟩ := e
      refine ⟨i, rfl, ?_⟩
      by_cases e1 : j = i
      · rw [e1]; exact Nat.le_refl _
      · rw [hq j e1] at h
        obtain ⟨j', h1, h2⟩ := hs.kept j g' p' h
        rcases hs.newest i k hpc g' p' b hmem j' h1 with h3 | h3
        · rw [← h3]; exact h2
        · omega
    · rw [if_neg e]
      refine hs.kept j g' p' ?_
      by_cases e1 : j = i
      · rw [e1, hi] at h
        obtain ⟨x, b', hx, hx2⟩ := h
        rw [e1]
        unfold Req.copied
        rw [hpc]
        have hx3 : ((s.req i).plan c)[x]? = some (g', p', b') := hx2
        refine ⟨x, b', ?_, hx3⟩
        have : x ≠ k := by
          intro hh
          rw [hh, hpl] at hx3
          injection hx3 with hx3
          injection hx3 with e2 e3
          injection e3 with e3 e4
          exact e ⟨e2.symm, e3.symm⟩
        omega
      · rw [hq j e1] at h
        exact h

/-- request after `complete`: only these fields change. -/
theorem complete_par (r : Req) (e : Int) : (r.complete e).1.par = r.par := by
  unfold Req.complete
  simp only []
  split <;> rfl

theorem complete_pc (r : Req) (e : Int) : (r.complete e).1.pc = r.pc := by
  unfold Req.complete
  simp only []
  split <;> rfl

theorem gone_congr {c : Cfg} {r r' : Req} (h : r.par = r'.par) (hp : r.pc = r'.pc) : r.gone c ↔ r'.gone c := by
  unfold Req.gone
  rw [hp, check_par h]

theorem mayHold_congr {c : Cfg} {r r' : Req} (h : r.par = r'.par) (hp : r.pc = r'.pc) (e : Nat) :
    r.mayHold c e ↔ r'.mayHold c e := by
  unfold Req.mayHold
  rw [hp, entries_par h, count_par h, start_par h]

theorem begun_congr {c : Cfg} {r r' : Req} (h : r.par = r'.par) (hp : r.pc = r'.pc) :
    r.begun c ↔ r'.begun c := by
  unfold Req.begun
  rw [hp, check_par h]

theorem copied_congr {c : Cfg} {r r' : Req} (h : r.par = r'.par) (hp : r.pc = r'.pc) (g p : Nat) :
    r.copied c g p ↔ r'.copied c g p := by
  unfold Req.copied
  rw [hp, check_par h, plan_par h]

/-- a step that changes only the state of one request, not its place. -/
theorem sameL {c : Cfg} {ps : Nat → Par} {m0 : Nat → Nat → Nat} {s s' : St} {seq : Nat → Nat} {n : Nat}
    (hs : InvL c ps m0 s seq n) {i : Nat} {r : Req} (hr : s'.req = upd s.req i r) (hm : s'.mem = s.mem)
    (hby : s'.by_ = s.by_) (hpar : r.par = (s.req i).par) (hpc : r.pc = (s.req i).pc)
    (ho : s'.owner = s.owner) : InvL c ps m0 s' seq n ∧ Later c s s' seq seq n n := by
  refine moveL hs hr hm hby hpar ((gone_congr hpar hpc).2 (hs.gone i)) (fun e j _ => by rw [ho]) ?_ ?_
    (begun_congr hpar hpc) (fun g p => (copied_congr hpar hpc g p).1) ?_
  · intro e h; rw [ho] at h; exact (mayHold_congr hpar hpc e).2 (hs.own e i h)
  · intro k h e he
    rw [hpc] at h
    rw [entries_par hpar] at he
    rw [ho]; exact hs.must i k h e he
  · intro k h; rw [hpc] at h; exact ⟨k, h⟩

/-- a step that moves a request to a place without locks and copies. -/
theorem restL {c : Cfg} {ps : Nat → Par} {m0 : Nat → Nat → Nat} {s s' : St} {seq : Nat → Nat} {n : Nat}
    (hs : InvL c ps m0 s seq n) {i : Nat} {r : Req} (hr : s'.req = upd s.req i r) (hm : s'.mem = s.mem)
    (hby : s'.by_ = s.by_) (hpar : r.par = (s.req i).par) (hgone : r.gone c)
    (ho : s'.owner = s.owner) (hold : ∀ e, s.owner e = some i → r.mayHold c e)
    (hnc : ∀ k, r.pc ≠ .copy k) (hb1 : ¬ r.begun c) (hb2 : ¬ (s.req i).begun c)
    (hcop : ∀ g p, ¬ r.copied c g p) : InvL c ps m0 s' seq n ∧ Later c s s' seq seq n n := by
  refine moveL hs hr hm hby hpar hgone (fun e j _ => by rw [ho]) ?_ ?_
    ⟨fun h => absurd h hb1, fun h => absurd h hb2⟩ (fun g p h => absurd h (hcop g p)) ?_
  · intro e h; rw [ho] at h; exact hold e h
  · intro k h; exact absurd h (hnc k)
  · intro k h; exact absurd h (hnc k)

/-- nothing but freeze and state change. -/
theorem idL {c : Cfg} {ps : Nat → Par} {m0 : Nat → Nat → Nat} {s s' : St} {seq : Nat → Nat} {n : Nat}
    (hs : InvL c ps m0 s seq n) (hr : s'.req = s.req) (hm : s'.mem = s.mem)
    (hby : s'.by_ = s.by_) (ho : s'.owner = s.owner) : InvL c ps m0 s' seq n ∧ Later c s s' seq seq n n := by
  refine sameL hs (i := 0) (r := s.req 0) ?_ hm hby rfl rfl ho
  rw [hr]
  funext j
  by_cases e : j = 0
  · rw [e, upd_self]
  · rw [upd_ne _ _ e]

theorem noMem_ne : errNoMem ≠ 0 := by decide

theorem step_invL {c : Cfg} {ps : Nat → Par} {m0 : Nat → Nat → Nat} {s s' : St} (hc : c.Ok)
    (hb : ∀ i, 0 < (ps i).bytes) {seq : Nat → Nat} {n : Nat} (hs : InvL c ps m0 s seq n) {o : Op}
    (h : exec c s o = some s') :
    ∃ seq' n', InvL c ps m0 s' seq' n' ∧ Later c s s' seq seq' n n' := by
  cases o with
  | submit i =>
    simp only [exec] at h
    split at h; · cases h
    rename_i hpc
    replace hpc : (s.req i).pc = .idle := Classical.byContradiction hpc
    have hno : ∀ e, s.owner e ≠ some i := by
      intro e he
      have := hs.own e i he
      unfold Req.mayHold at this
      rw [hpc] at this
      exact this
    have hnb : ¬ (s.req i).begun c := by unfold Req.begun; rw [hpc]; exact id
    refine ⟨seq, n, ?_⟩
    split at h
    · cases h
      exact restL hs rfl rfl rfl rfl trivial rfl (fun e he => absurd he (hno e)) (by simp) (by simp [Req.begun]) hnb
        (by simp [Req.copied])
    · split at h
      · cases h
        exact restL hs rfl rfl rfl rfl trivial rfl (fun e he => absurd he (hno e)) (by simp) (by simp [Req.begun]) hnb
          (by simp [Req.copied])
      · cases h
        exact restL hs rfl rfl rfl rfl trivial rfl (fun e he => absurd he (hno e)) (by simp) (by simp [Req.begun]) hnb
          (by simp [Req.copied])
  | update i =>
    simp only [exec] at h
    split at h; · cases h
    rename_i hpc
    replace hpc : (s.req i).pc = .sent := Classical.byContradiction hpc
    have hno : ∀ e, s.owner e ≠ some i := by
      intro e he
      have := hs.own e i he
      unfold Req.mayHold at this
      rw [hpc] at this
      exact this
    have hnb : ¬ (s.req i).begun c := by unfold Req.begun; rw [hpc]; exact id
    refine ⟨seq, n, ?_⟩
    cases hck : (s.req i).check c with
    | some e =>
      simp only [hck] at h
      cases h
      have hp : ({ s.req i with pc := .over e } : Req).par = (s.req i).par := rfl
      have hck' : ((({ s.req i with pc := .over e } : Req).complete e).1).check c = some e := by
        rw [check_par (complete_par _ _), check_par hp, hck]
      have hpc' : ((({ s.req i with pc := .over e } : Req).complete e).1).pc = .over e := complete_pc _ _
      refine restL hs rfl rfl rfl (complete_par _ _) ?_ rfl (fun e he => absurd he (hno e)) ?_ ?_ hnb ?_
      · unfold Req.gone; rw [hpc']; trivial
      · rw [hpc']; simp
      · unfold Req.begun; rw [hpc', hck']; simp
      · intro g p; unfold Req.copied; rw [hpc', hck']; simp
    | none =>
      simp only [hck] at h
      cases h
      exact restL hs rfl rfl rfl rfl hck rfl (fun e he => absurd he (hno e)) (by simp) (by simp [Req.begun]) hnb
        (by simp [Req.copied])
  | dev i e =>
    simp only [exec] at h
    split at h; · cases h
    cases h
    exact ⟨seq, n, sameL hs rfl rfl rfl (complete_par _ _) (complete_pc _ _) rfl⟩
  | ret i =>
    simp only [exec] at h
    split at h; · cases h
    cases h
    exact ⟨seq, n, sameL hs rfl rfl rfl (complete_par _ _) (complete_pc _ _) rfl⟩
  | take i e =>
    simp only [exec] at h
    split at h
    · rename_i hh
      obtain ⟨hpc, he, hf⟩ := hh
      cases h
      refine ⟨seq, n, moveL hs (i := i) (r := s.req i) ?_ rfl rfl rfl (hs.gone i) ?_ ?_ ?_ Iff.rfl (fun _ _ => id) ?_⟩
      · funext j
        by_cases e' : j = i
        · rw [e', upd_self]
        · rw [upd_ne _ _ e']
      · intro x j hj
        show upd s.owner e (some i) x = some j ↔ _
        by_cases e' : x = e
        · rw [e', upd_self, hf]
          simp [Ne.symm hj]
        · rw [upd_ne _ _ e']
      · intro x hx
        replace hx : upd s.owner e (some i) x = some i := hx
        by_cases e' : x = e
        · rw [e']; unfold Req.mayHold; rw [hpc]; exact he
        · rw [upd_ne _ _ e'] at hx; exact hs.own x i hx
      · intro k hk; rw [hpc] at hk; cases hk
      · intro k hk; exact ⟨k, hk⟩
    · cases h
  | back i e =>
    simp only [exec] at h
    split at h
    · rename_i hh
      obtain ⟨hpc, ho⟩ := hh
      cases h
      refine ⟨seq, n, moveL hs (i := i) (r := s.req i) ?_ rfl rfl rfl (hs.gone i) ?_ ?_ ?_ Iff.rfl (fun _ _ => id) ?_⟩
      · funext j
        by_cases e' : j = i
        · rw [e', upd_self]
        · rw [upd_ne _ _ e']
      · intro x j hj
        show upd s.owner e none x = some j ↔ _
        by_cases e' : x = e
        · rw [e', upd_self, ho]
          simp [Ne.symm hj]
        · rw [upd_ne _ _ e']
      · intro x hx
        replace hx : upd s.owner e none x = some i := hx
        by_cases e' : x = e
        · rw [e', upd_self] at hx; cases hx
        · rw [upd_ne _ _ e'] at hx; exact hs.own x i hx
      · intro k hk; rw [hpc] at hk; cases hk
      · intro k hk; exact ⟨k, hk⟩
    · cases h
  | fail i =>
    simp only [exec] at h
    split at h
    · rename_i hh
      obtain ⟨hpc, ho⟩ := hh
      cases h
      have ho : ∀ e ∈ (s.req i).entries c, s.owner e ≠ some i := by simpa using ho
      have hno : ∀ e, s.owner e ≠ some i := by
        intro e he
        have := hs.own e i he
        unfold Req.mayHold at this
        rw [hpc] at this
        exact ho e this he
      have hpc' : ((({ s.req i with pc := .over errNoMem } : Req).complete errNoMem).1).pc = .over errNoMem :=
        complete_pc _ _
      refine ⟨seq, n, restL hs rfl rfl rfl (complete_par _ _) ?_ rfl (fun e he => absurd he (hno e)) ?_ ?_ ?_ ?_⟩
      · unfold Req.gone; rw [hpc']; trivial
      · rw [hpc']; simp
      · unfold Req.begun; rw [hpc']; exact fun hh => absurd hh.1 noMem_ne
      · unfold Req.begun; rw [hpc]; exact id
      · intro g p; unfold Req.copied; rw [hpc']; exact fun hh => absurd hh.1 noMem_ne
    · cases h
  | granted i =>
    simp only [exec] at h
    split at h
    · rename_i hh
      obtain ⟨hpc, ho⟩ := hh
      cases h
      exact ⟨_, _, grantL hs hpc (by simpa using ho)⟩
    · cases h
  | copy i =>
    simp only [exec] at h
    cases hpc : (s.req i).pc <;> simp only [hpc] at h <;> try cases h
    rename_i k
    cases hpl : ((s.req i).plan c)[k]? with
    | some x =>
      obtain ⟨g, p, b⟩ := x
      exact ⟨seq, n, copyL hc hb hs hpc hpl⟩
    | none =>
      have hck : (s.req i).check c = none := by
        have := hs.gone i; unfold Req.gone at this; rw [hpc] at this; exact this
      refine ⟨seq, n, moveL hs (i := i) (r := { s.req i with pc := .unlock 0 }) rfl rfl rfl rfl hck
        (fun _ _ _ => Iff.rfl) ?_ ?_ ?_ ?_ ?_⟩
      · intro e he
        have := hs.own e i he
        unfold Req.mayHold at this
        rw [hpc] at this
        simp only [Req.entries, List.mem_filterMap, List.mem_range] at this
        show ∃ j, 0 ≤ j ∧ j < ({ s.req i with pc := Pc.unlock 0 } : Req).count ∧
          c.entry (({ s.req i with pc := Pc.unlock 0 } : Req).start + j) = some e
        rw [start_par (show ({ s.req i with pc := Pc.unlock 0 } : Req).par = (s.req i).par from rfl),
          count_par (show ({ s.req i with pc := Pc.unlock 0 } : Req).par = (s.req i).par from rfl)]
        obtain ⟨j, h1, h2⟩ := this
        exact ⟨j, Nat.zero_le _, h1, h2⟩
      · intro k hk; cases hk
      · unfold Req.begun; rw [hpc]
      · intro g p hh
        obtain ⟨b, hh⟩ := hh
        rw [plan_par (show ({ s.req i with pc := Pc.unlock 0 } : Req).par = (s.req i).par from rfl)] at hh
        unfold Req.copied
        rw [hpc]
        obtain ⟨j, hj⟩ := List.mem_iff_getElem?.1 hh
        refine ⟨j, b, ?_, hj⟩
        have h1 := List.getElem?_eq_none_iff.1 hpl
        have h2 := (List.getElem?_eq_some_iff.1 hj).1
        omega
      · intro k hk; cases hk
  | unlock i =>
    simp only [exec] at h
    cases hpc : (s.req i).pc <;> simp only [hpc] at h <;> try cases h
    rename_i k
    have hck : (s.req i).check c = none := by
      have := hs.gone i; unfold Req.gone at this; rw [hpc] at this; exact this
    split at h
    · rename_i hk
      cases h
      refine ⟨seq, n, moveL hs (i := i) (r := { s.req i with pc := .unlock (k + 1) }) rfl rfl rfl rfl hck ?_ ?_ ?_ ?_ ?_ ?_⟩
      · intro x j hj
        simp only []
        cases he : c.entry ((s.req i).start + k) with
        | none => exact Iff.rfl
        | some e =>
          simp only []
          split
          · rename_i ho
            by_cases e' : x = e
            · rw [e', upd_self, ho]; simp [Ne.symm hj]
            · rw [upd_ne _ _ e']
          · exact Iff.rfl
      · intro x hx
        have hold : s.owner x = some i ∧ c.entry ((s.req i).start + k) ≠ some x := by
          simp only [] at hx
          cases he : c.entry ((s.req i).start + k) with
          | none => simp only [he] at hx; exact ⟨hx, by simp⟩
          | some e =>
            simp only [he] at hx
            split at hx
            · rename_i ho
              by_cases e' : x = e
              · rw [e', upd_self] at hx; cases hx
              · rw [upd_ne _ _ e'] at hx
                exact ⟨hx, by simp; exact Ne.symm e'⟩
            · rename_i ho
              refine ⟨hx, ?_⟩
              intro hh
              injection hh with hh
              exact ho (hh ▸ hx)
        have := hs.own x i hold.1
        unfold Req.mayHold at this ⊢
        rw [hpc] at this
        obtain ⟨j, h1, h2, h3⟩ := this
        refine ⟨j, ?_, h2, h3⟩
        have : j ≠ k := by rintro rfl; exact hold.2 h3
        omega
      · intro k hk; cases hk
      · unfold Req.begun; rw [hpc]
      · intro g p hh
        unfold Req.copied
        rw [hpc]
        exact hh
      · intro k hk; cases hk
    · rename_i hk
      cases h
      have hpc' : ((({ s.req i with pc := .over 0 } : Req).complete 0).1).pc = .over 0 := complete_pc _ _
      have hpar' : ((({ s.req i with pc := .over 0 } : Req).complete 0).1).par = (s.req i).par := complete_par _ _
      refine ⟨seq, n, moveL hs (i := i) rfl rfl rfl hpar' ?_ (fun _ _ _ => Iff.rfl) ?_ ?_ ?_ ?_ ?_⟩
      · unfold Req.gone; rw [hpc']; trivial
      · intro e he
        have := hs.own e i he
        unfold Req.mayHold at this
        rw [hpc] at this
        obtain ⟨j, h1, h2, _⟩ := this
        exact absurd h2 (by omega)
      · intro k hk; rw [hpc'] at hk; cases hk
      · unfold Req.begun; rw [hpc', hpc, check_par hpar', hck]; simp
      · intro g p hh
        unfold Req.copied at hh ⊢
        rw [hpc', plan_par hpar'] at hh
        rw [hpc]
        exact hh.2.2
      · intro k hk; rw [hpc'] at hk; cases hk
  | freeze =>
    simp only [exec] at h
    split at h <;> cases h
    exact ⟨seq, n, idL hs rfl rfl rfl rfl⟩
  | leave =>
    simp only [exec] at h
    split at h <;> cases h
    exact ⟨seq, n, idL hs rfl rfl rfl rfl⟩
  | unfreeze =>
    simp only [exec] at h
    split at h <;> cases h
    exact ⟨seq, n, idL hs rfl rfl rfl rfl⟩

theorem run_invL {c : Cfg} {ps : Nat → Par} {m0 : Nat → Nat → Nat} (hc : c.Ok)
    (hb : ∀ i, 0 < (ps i).bytes) {s t : St} (h : Run c s t) {seq : Nat → Nat} {n : Nat}
    (hs : InvL c ps m0 s seq n) : ∃ seq' n', InvL c ps m0 t seq' n' ∧ Later c s t seq seq' n n' := by
  induction h with
  | refl => exact ⟨seq, n, hs, later_of fun _ => Iff.rfl⟩
  | step o _ h1 ih =>
    obtain ⟨f, a, ht, hl⟩ := ih
    obtain ⟨f', a', ht', hl'⟩ := step_invL hc hb ht h1
    exact ⟨f', a', ht', hl.trans hl'⟩

end Verif.Passive
