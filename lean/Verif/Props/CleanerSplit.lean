import Verif.Model.Cleaner

/-! Property C19 (every item of a cleaning order in exactly one request; which sectors are written)
and property C45 (each of those sectors exactly once). -/

namespace Verif.Cleaner

/-! ### Sector ranges -/

/-- Specification: how many of the ranges `[b, e)` contain sector `t`. -/
def times (rs : List (Nat × Nat)) (t : Nat) : Nat :=
  (rs.filter (fun r => decide (r.1 ≤ t ∧ t < r.2))).length

theorem times_cons (r : Nat × Nat) (rs : List (Nat × Nat)) (t : Nat) :
    times (r :: rs) t = (if r.1 ≤ t ∧ t < r.2 then 1 else 0) + times rs t := by
  unfold times
  by_cases q : r.1 ≤ t ∧ t < r.2 <;> simp [q]; omega

theorem times_nil (t : Nat) : times [] t = 0 := rfl

theorem times_runs (d : Nat → Bool) (t : Nat) : ∀ (left i : Nat),
    times (runs d left i none) t = (if i ≤ t ∧ t < i + left ∧ d t = true then 1 else 0) ∧
    ∀ b, b ≤ i → times (runs d left i (some b)) t =
      (if (b ≤ t ∧ t < i) ∨ (i ≤ t ∧ t < i + left ∧ d t = true) then 1 else 0) := by
  intro left
  induction left with
  | zero =>
    intro i
    constructor
    · simp only [runs, times_nil]; grind
    · intro b hb; simp only [runs, times_cons, times_nil]; grind
  | succ left ih =>
    intro i
    obtain ⟨a, c⟩ := ih (i + 1)
    by_cases q : d i = true
    · refine ⟨?_, fun b hb => ?_⟩
      · have c := c i (by omega)
        simp only [runs, q, if_true, Option.getD_none, c]
        grind
      · have c := c b (by omega)
        simp only [runs, q, if_true, Option.getD_some, c]
        grind
    · refine ⟨?_, fun b hb => ?_⟩
      · simp only [runs, q]
        grind
      · simp only [runs, q]
        simp only [Bool.false_eq_true, if_false, times_cons, a]
        grind

theorem anyB_iff (S : Nat) (d : Nat → Bool) : anyB S d = true ↔ ∃ t < S, d t = true := by
  simp [anyB]

theorem allB_iff (S : Nat) (d : Nat → Bool) : allB S d = true ↔ ∀ t < S, d t = true := by
  simp [allB]

/-- C45 (any bitmaps, any sector count): cleaning a line writes each dirty sector once; if all
sectors of the line are valid it writes every sector once; nothing else. -/
theorem written_once (S : Nat) (v d : Nat → Bool) (h : ∀ t, d t = true → v t = true) (t : Nat) :
    times (ranges S v d) t =
      if t < S ∧ (d t = true ∨ ((∀ u < S, v u = true) ∧ ∃ u < S, d u = true)) then 1 else 0 := by
  unfold ranges
  by_cases q : allB S v = true ∧ anyB S d = true
  · have a := (allB_iff S v).1 q.1
    have b := (anyB_iff S d).1 q.2
    rw [if_pos q, times_cons, times_nil]
    by_cases t < S <;> simp_all
  · have : ¬ ((∀ u < S, v u = true) ∧ ∃ u < S, d u = true) := by
      rwa [← allB_iff, ← anyB_iff]
    rw [if_neg q, (times_runs _ t S 0).1]
    have := h t
    grind

/-- C19, exactly the dirty ranges (any bitmaps). Partial: only for lines with an invalid sector;
`clean_sectors_rewritten` shows that otherwise clean sectors are written, too. -/
theorem written_dirty_partial (S : Nat) (v d : Nat → Bool) (h : ∀ t, d t = true → v t = true)
    (hv : ∃ u < S, v u = false) (t : Nat) :
    times (ranges S v d) t = if t < S ∧ d t = true then 1 else 0 := by
  rw [written_once S v d h t]
  obtain ⟨u, hu, e⟩ := hv
  have : ¬ ∀ u < S, v u = true := fun a => by simp [a u hu] at e
  simp [this]

/-- C19 as stated fails for fully valid lines: a clean sector is written to the core. -/
theorem clean_sectors_rewritten : ∃ (S : Nat) (v d : Nat → Bool) (t : Nat),
    (∀ t, d t = true → v t = true) ∧ d t = false ∧ times (ranges S v d) t = 1 :=
  ⟨8, fun _ => true, fun t => t == 3, 5, by simp, by decide, by decide⟩

example : ranges 8 (fun t => t != 7) (fun t => t == 1 || t == 2 || t == 5) = [(1, 3), (5, 6)] := by
  decide
example : ranges 8 (fun t => t != 0) (fun t => t == 6 || t == 7) = [(6, 8)] := by decide
example : ranges 8 (fun _ => true) (fun t => t == 6) = [(0, 8)] := by decide
example : times (ranges 8 (fun t => t != 7) (fun t => t == 1 || t == 2 || t == 5)) 2 = 1 := by
  rw [written_once _ _ _ (by intro t; simp; omega)]; decide

/-- C45, ranges are not empty, in order and apart from each other (no two could be one write). -/
theorem runs_apart (d : Nat → Bool) : ∀ (left i : Nat),
    (∀ r ∈ runs d left i none, i ≤ r.1 ∧ r.1 < r.2 ∧ r.2 ≤ i + left) ∧
    (runs d left i none).Pairwise (fun a b => a.2 < b.1) ∧
    ∀ b, b < i → (∀ r ∈ runs d left i (some b), b ≤ r.1 ∧ r.1 < r.2 ∧ r.2 ≤ i + left) ∧
      (runs d left i (some b)).Pairwise (fun a b => a.2 < b.1) := by
  intro left
  induction left with
  | zero => intro i; simp [runs]
  | succ left ih =>
    intro i
    obtain ⟨a1, a2, a3⟩ := ih (i + 1)
    by_cases q : d i = true
    · refine ⟨?_, ?_, fun b hb => ?_⟩
      · simp only [runs, q, if_true, Option.getD_none]
        intro r hr
        have := (a3 i (by omega)).1 r hr
        omega
      · simp only [runs, q, if_true, Option.getD_none]
        exact (a3 i (by omega)).2
      · simp only [runs, q, if_true, Option.getD_some]
        refine ⟨fun r hr => ?_, (a3 b (by omega)).2⟩
        have := (a3 b (by omega)).1 r hr
        omega
    · simp only [runs, q, Bool.false_eq_true, if_false]
      refine ⟨fun r hr => ?_, a2, fun b hb => ⟨fun r hr => ?_, ?_⟩⟩
      · have := a1 r hr
        omega
      · rcases List.mem_cons.1 hr with e | e
        · subst e; simp; omega
        · have := a1 r e; omega
      · refine List.pairwise_cons.2 ⟨fun r hr => ?_, a2⟩
        have := a1 r hr
        simp; omega

theorem ranges_apart (S : Nat) (v d : Nat → Bool) (hS : 0 < S) :
    (∀ r ∈ ranges S v d, r.1 < r.2 ∧ r.2 ≤ S) ∧
    (ranges S v d).Pairwise (fun a b => a.2 < b.1) := by
  unfold ranges
  split
  · simp [hS]
  · have := runs_apart (fun t => v t && d t) S 0
    refine ⟨fun r hr => ?_, this.2.1⟩
    have := this.1 r hr
    omega

/-! ### Splitting -/

/-- All that is needed of `populate`. -/
structure Pop (g : Nat → Option (Nat × Nat × Nat)) (left curr room : Nat) (last : Option Nat)
    (ps : List Pick) (c : Nat) : Prop where
  lo : curr ≤ c
  hi : c ≤ curr + left
  rng : ∀ p ∈ ps, curr ≤ p.item ∧ p.item < c
  val : ∀ p ∈ ps, g p.item = some (p.line, p.core, p.cl)
  inc : (ps.map (·.item)).Pairwise (· < ·)
  cov : ∀ i, curr ≤ i → i < c → (∃ p ∈ ps, p.item = i) ∨ g i = none
  len : ps.length ≤ room
  core : ∀ k, last = some k → ∀ p ∈ ps, p.core = k
  one : ∀ p ∈ ps, ∀ q ∈ ps, p.core = q.core
  stop : last = none → 0 < room → ps = [] → c = curr + left

theorem populate_pop (g : Nat → Option (Nat × Nat × Nat)) : ∀ (left curr room : Nat)
    (last : Option Nat), Pop g left curr room last (populate g left curr room last).1
      (populate g left curr room last).2 := by
  intro left
  induction left with
  | zero => intro curr room last; constructor <;> simp [populate] <;> omega
  | succ left ih =>
    intro curr room last
    cases room with
    | zero => constructor <;> simp [populate]; omega
    | succ room =>
      rcases hg : g curr with _ | ⟨line, core, cl⟩
      · have h := ih (curr + 1) (room + 1) last
        have e : populate g (left + 1) curr (room + 1) last =
            populate g left (curr + 1) (room + 1) last := by simp [populate, hg]
        rw [e]
        generalize (populate g left (curr + 1) (room + 1) last).1 = ps at *
        generalize (populate g left (curr + 1) (room + 1) last).2 = c at *
        have := h.lo
        have := h.hi
        refine { h with
          lo := by omega, hi := by omega
          rng := fun p hp => by have := h.rng p hp; omega
          cov := fun i hi hc => ?_
          stop := fun a b c => by have := h.stop a b c; omega }
        by_cases q : i = curr
        · exact .inr (q ▸ hg)
        · exact h.cov i (by omega) hc
      · by_cases ql : last = none ∨ last = some core
        · have h := ih (curr + 1) room (some core)
          have e : populate g (left + 1) curr (room + 1) last =
              (⟨curr, line, core, cl⟩ :: (populate g left (curr + 1) room (some core)).1,
               (populate g left (curr + 1) room (some core)).2) := by simp [populate, hg, ql]
          rw [e]
          simp only
          generalize (populate g left (curr + 1) room (some core)).1 = ps at *
          generalize (populate g left (curr + 1) room (some core)).2 = c at *
          have := h.lo
          have := h.hi
          have hcore := h.core core rfl
          refine ⟨by omega, by omega, ?_, ?_, ?_, fun i hi hc => ?_, ?_, ?_, ?_, ?_⟩
          · intro p hp
            rcases List.mem_cons.1 hp with e | e
            · subst e; simp; omega
            · have := h.rng p e; omega
          · intro p hp
            rcases List.mem_cons.1 hp with e | e
            · subst e; exact hg
            · exact h.val p e
          · simp only [List.map_cons, List.pairwise_cons]
            refine ⟨fun j hj => ?_, h.inc⟩
            obtain ⟨p, hp, rfl⟩ := List.mem_map.1 hj
            have := h.rng p hp
            omega
          · by_cases q : i = curr
            · exact .inl ⟨_, List.mem_cons_self, q.symm⟩
            · rcases h.cov i (by omega) hc with ⟨p, hp, e⟩ | e
              · exact .inl ⟨p, List.mem_cons_of_mem _ hp, e⟩
              · exact .inr e
          · have := h.len; simp; omega
          · intro k hk p hp
            have : k = core := by rcases ql with q | q <;> simp_all
            subst this
            rcases List.mem_cons.1 hp with e | e
            · subst e; rfl
            · exact hcore p e
          · have : ∀ p ∈ (⟨curr, line, core, cl⟩ : Pick) :: ps, p.core = core := by
              intro p hp
              rcases List.mem_cons.1 hp with e | e
              · subst e; rfl
              · exact hcore p e
            intro p hp q hq
            rw [this p hp, this q hq]
          · intro _ _ e; cases e
        · have e : populate g (left + 1) curr (room + 1) last = ([], curr) := by
            simp [populate, hg, ql]
          rw [e]
          constructor <;> simp
          · omega
          · exact fun q => absurd (.inl q) ql

theorem allocReq_pos (o : Oracle) (max room : Nat) (h : allocReq o max = some room) (hm : 0 < max) :
    0 < room ∧ room ≤ max := by
  unfold allocReq maxCount at h
  split at h
  · cases h; omega
  · split at h
    · cases h; simp; omega
    · cases h

/-- What `ocf_cleaner_fire` guarantees from item `curr` on. -/
structure Fired (o : Nat → Oracle) (count r curr max : Nat) (rs : List (List Pick)) (e : Bool) :
    Prop where
  rng : ∀ p ∈ rs.flatten, curr ≤ p.item ∧ p.item < count
  inc : (rs.flatten.map (·.item)).Pairwise (· < ·)
  cov : e = false → ∀ i, curr ≤ i → i < count →
    (∃ p ∈ rs.flatten, p.item = i) ∨ ∃ k, (o k).get i = none
  val : ∀ (j : Nat) ps, rs[j]? = some ps → ∀ p ∈ ps, (o (r + j)).get p.item = some (p.line, p.core, p.cl)
  one : ∀ ps ∈ rs, ps ≠ [] ∧ ps.length ≤ max ∧ ∀ p ∈ ps, ∀ q ∈ ps, p.core = q.core
  noerr : (∀ k, ((o k).alloc = true ∨ (o k).alloc2 = true) ∧ (o k).lockOk = true) → e = false

theorem fireLoop_fired (o : Nat → Oracle) (count : Nat) : ∀ (fuel r curr max : Nat),
    count - curr ≤ fuel → 0 < max →
    Fired o count r curr max (fireLoop o count fuel r curr max).1
      (fireLoop o count fuel r curr max).2 := by
  intro fuel
  induction fuel with
  | zero =>
    intro r curr max hf hm
    constructor <;> simp [fireLoop]
    intros; omega
  | succ fuel ih =>
    intro r curr max hf hm
    by_cases hc : curr < count
    · rcases ha : allocReq (o r) (min max (count - curr)) with _ | room
      · have e : fireLoop o count (fuel + 1) r curr max = ([], true) := by
          simp [fireLoop, hc, ha]
        rw [e]
        constructor <;> simp
        refine ⟨r, fun a => ?_⟩
        unfold allocReq at ha
        split at ha
        · cases ha
        · split at ha
          · cases ha
          · simp_all
      · obtain ⟨hr, hr2⟩ := allocReq_pos _ _ _ ha (by omega)
        have hp := populate_pop (o r).get (count - curr) curr room none
        rcases hpp : populate (o r).get (count - curr) curr room none with ⟨ps, c⟩
        rw [hpp] at hp
        simp only at hp
        have h1 := hp.lo
        have h2 := hp.hi
        by_cases qe : ps = []
        · have e : fireLoop o count (fuel + 1) r curr max = ([], false) := by
            simp [fireLoop, hc, ha, hpp, qe]
          rw [e]
          have := hp.stop rfl hr qe
          constructor <;> simp
          intro i hi hic
          rcases hp.cov i hi (by omega) with ⟨p, hp, _⟩ | e
          · simp [qe] at hp
          · exact ⟨r, e⟩
        · by_cases ql : (o r).lockOk = true
          · have hlt : curr < c := by
              obtain ⟨p, hpm⟩ := List.exists_mem_of_ne_nil ps qe
              have := hp.rng p hpm
              omega
            have h := ih (r + 1) c (min max (count - curr)) (by omega) (by omega)
            have e : fireLoop o count (fuel + 1) r curr max =
              (ps :: (fireLoop o count fuel (r + 1) c (min max (count - curr))).1,
               (fireLoop o count fuel (r + 1) c (min max (count - curr))).2) := by
              simp [fireLoop, hc, ha, hpp, qe, ql]
            rw [e]
            simp only
            generalize (fireLoop o count fuel (r + 1) c (min max (count - curr))).1 = rs at *
            generalize (fireLoop o count fuel (r + 1) c (min max (count - curr))).2 = er at *
            refine ⟨?_, ?_, ?_, ?_, ?_, h.noerr⟩
            · intro p hm
              simp only [List.flatten_cons, List.mem_append] at hm
              rcases hm with hm | hm
              · have := hp.rng p hm; omega
              · have := h.rng p hm; omega
            · simp only [List.flatten_cons, List.map_append]
              refine List.pairwise_append.2 ⟨hp.inc, h.inc, fun a ha b hb => ?_⟩
              obtain ⟨p, hpa, rfl⟩ := List.mem_map.1 ha
              obtain ⟨q, hqb, rfl⟩ := List.mem_map.1 hb
              have := hp.rng p hpa
              have := h.rng q hqb
              omega
            · intro he i hi hic
              by_cases q : i < c
              · rcases hp.cov i hi q with ⟨p, hpm, e⟩ | e
                · exact .inl ⟨p, by simp [hpm], e⟩
                · exact .inr ⟨r, e⟩
              · rcases h.cov he i (by omega) hic with ⟨p, hpm, e⟩ | e
                · refine .inl ⟨p, ?_, e⟩
                  simp only [List.flatten_cons, List.mem_append]
                  exact .inr hpm
                · exact .inr e
            · intro j qs hj p hpm
              cases j with
              | zero =>
                simp at hj
                subst hj
                exact hp.val p hpm
              | succ j =>
                simp at hj
                have := h.val j qs hj p hpm
                rwa [Nat.add_right_comm, Nat.add_assoc] at this
            · intro qs hq
              rcases List.mem_cons.1 hq with e | e
              · subst e
                exact ⟨qe, by have := hp.len; omega, hp.one⟩
              · have := h.one qs e
                exact ⟨this.1, by omega, this.2.2⟩
          · have e : fireLoop o count (fuel + 1) r curr max = ([], true) := by
              simp [fireLoop, hc, ha, hpp, qe, ql]
            rw [e]
            constructor <;> simp
            exact ⟨r, fun _ => by simpa using ql⟩
    · have e : fireLoop o count (fuel + 1) r curr max = ([], false) := by simp [fireLoop, hc]
      rw [e]
      constructor <;> simp
      intros; omega

/-- Specification: how many entries of all requests came from item `i` of the order. -/
def covers (rs : List (List Pick)) (i : Nat) : Nat :=
  (rs.flatten.filter (fun p => p.item == i)).length

theorem filter_len_le_one (l : List Pick) (i : Nat) (h : (l.map (·.item)).Pairwise (· < ·)) :
    (l.filter (fun p => p.item == i)).length ≤ 1 := by
  induction l with
  | nil => simp
  | cons p l ih =>
    simp only [List.map_cons, List.pairwise_cons] at h
    by_cases q : p.item = i
    · have : l.filter (fun p => p.item == i) = [] := by
        rw [List.filter_eq_nil_iff]
        intro x hx e
        have := h.1 x.item (List.mem_map_of_mem hx)
        have : x.item = i := by simpa using e
        omega
      simp [q, this]
    · have := ih h.2
      simpa [q] using this

theorem fire_fired (o : Nat → Oracle) (count : Nat) (h : 0 < count) :
    Fired o count 0 0 (maxCount count false) (fire o count).1 (fire o count).2 :=
  fireLoop_fired o count count 0 0 _ (by omega) (by unfold maxCount; simp; split <;> omega)

/-- C19 (any order, getter, sequence of mappings, allocation failures): no item is in two requests
and no request contains anything that is not an item. -/
theorem item_at_most_once (o : Nat → Oracle) (count i : Nat) :
    covers (fire o count).1 i ≤ (if i < count then 1 else 0) := by
  by_cases hc : 0 < count
  · have h := fire_fired o count hc
    have h1 := filter_len_le_one _ i h.inc
    split
    · exact h1
    · next q =>
      have : (fire o count).1.flatten.filter (fun p => p.item == i) = [] := by
        rw [List.filter_eq_nil_iff]
        intro x hx e
        have := h.rng x hx
        have : x.item = i := by simpa using e
        omega
      simp [covers, this]
  · have : count = 0 := by omega
    subst this
    simp [covers, fire, fireLoop]

/-- C19 (same generality): if the order did not fail, every item the getter did not skip is covered by
exactly one request. -/
theorem item_exactly_once (o : Nat → Oracle) (count i : Nat) (hi : i < count)
    (he : (fire o count).2 = false) (hg : ∀ r, (o r).get i ≠ none) :
    covers (fire o count).1 i = 1 := by
  have h := fire_fired o count (by omega)
  have h1 := filter_len_le_one _ i h.inc
  rcases h.cov he i (by omega) hi with ⟨p, hp, e⟩ | ⟨k, e⟩
  · have : p ∈ (fire o count).1.flatten.filter (fun p => p.item == i) :=
      List.mem_filter.2 ⟨hp, by simpa using e⟩
    have := List.length_pos_of_mem this
    simp only [covers]
    omega
  · exact absurd e (hg k)

/-- C19: without allocation and lock failures the order does not fail. -/
theorem no_failure (o : Nat → Oracle) (count : Nat)
    (h : ∀ k, ((o k).alloc = true ∨ (o k).alloc2 = true) ∧ (o k).lockOk = true) :
    (fire o count).2 = false := by
  by_cases hc : 0 < count
  · exact (fire_fired o count hc).noerr h
  · have : count = 0 := by omega
    subst this
    simp [fire, fireLoop]

/-- C19: requests are non-empty, hold at most 1024 lines, all of the same core, and each entry holds
what the getter and the metadata said when the request was set up. -/
theorem request_shape (o : Nat → Oracle) (count j : Nat) (ps : List Pick)
    (h : (fire o count).1[j]? = some ps) :
    ps ≠ [] ∧ ps.length ≤ 1024 ∧ (∀ p ∈ ps, ∀ q ∈ ps, p.core = q.core) ∧
    ∀ p ∈ ps, (o j).get p.item = some (p.line, p.core, p.cl) := by
  by_cases hc : 0 < count
  · have hf := fire_fired o count hc
    have h1 := hf.one ps (List.mem_of_getElem? h)
    refine ⟨h1.1, ?_, h1.2.2, fun p hp => ?_⟩
    · have := h1.2.1
      unfold maxCount at this
      split at this <;> omega
    · simpa using hf.val j ps h p hp
  · have : count = 0 := by omega
    subst this
    simp [fire, fireLoop] at h

/-- 5 items, item 2 skipped, core changes after item 1. -/
def exOracle : Oracle := ⟨true, true, true, fun i =>
  if i = 2 then none else some (10 + i, if i < 2 then 0 else 1, 100 + i)⟩

example : fire (fun _ => exOracle) 5 =
    ([[⟨0, 10, 0, 100⟩, ⟨1, 11, 0, 101⟩], [⟨3, 13, 1, 103⟩, ⟨4, 14, 1, 104⟩]], false) := by decide
example : covers (fire (fun _ => exOracle) 5).1 3 = 1 :=
  item_exactly_once _ 5 3 (by decide) (no_failure _ _ (fun _ => ⟨.inl rfl, rfl⟩))
    (fun _ => by decide)

end Verif.Cleaner
