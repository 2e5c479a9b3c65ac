import Verif.Model.Lru

/-! Lemmas about the recency lists: a pointer structure represents a sequence. -/

namespace Verif.Lru

/-- `m`, `l` represent the sequence `xs` whose first `h` elements are hot. -/
structure Rep (m : Nat → Meta) (l : LList) (xs : List Nat) (h : Nat) : Prop where
  nodup : xs.Nodup
  len : l.numNodes = xs.length
  head : l.head = xs[0]?
  tail : l.tail = xs[xs.length - 1]?
  node : ∀ (i x : Nat), xs[i]? = some x →
    m x = ⟨if i = 0 then none else xs[i - 1]?, xs[i + 1]?, decide (i < h)⟩
  nhot : l.numHot = h
  hle : h ≤ xs.length
  last : l.lastHot = if h = 0 then none else xs[h - 1]?

theorem idx_inj {xs : List Nat} (hn : xs.Nodup) {i j x : Nat} (hi : xs[i]? = some x)
    (hj : xs[j]? = some x) : i = j := by
  obtain ⟨h1, h2⟩ := List.getElem?_eq_some_iff.1 hi
  obtain ⟨h3, h4⟩ := List.getElem?_eq_some_iff.1 hj
  exact (List.getElem_inj hn).1 (h2.trans h4.symm)

theorem rep_init (m : Nat → Meta) (b : Bool) : Rep m (initList b) [] 0 :=
  ⟨by simp, rfl, rfl, rfl, by simp, rfl, by simp, by simp [initList]⟩

theorem setM_same (m : Nat → Meta) (i : Nat) (x : Meta) : setM m i x i = x := by simp [setM]

theorem setM_ne {m : Nat → Meta} {i j : Nat} {x : Meta} (h : j ≠ i) : setM m i x j = m j := by
  simp [setM, h]

/-- The list keeps its contents when nodes outside it change. -/
theorem Rep.frame {m m' : Nat → Meta} {l : LList} {xs : List Nat} {h : Nat} (r : Rep m l xs h)
    (hm : ∀ x ∈ xs, m' x = m x) : Rep m' l xs h :=
  { r with node := fun i x hx => by rw [hm x (List.mem_of_getElem? hx)]; exact r.node i x hx }

/-- Result of adding before balancing: number of hot nodes. -/
def addHot (t : Bool) (n h : Nat) : Nat := if n = 0 then h else if t then h + 1 else h

theorem rep_addNoBalance {s : LS} {xs : List Nat} {h c : Nat} (r : Rep s.m s.l xs h)
    (hc : c ∉ xs) (ht : s.l.trackHot = false → h = 0) :
    Rep (addHeadNoBalance s c).m (addHeadNoBalance s c).l (c :: xs)
      (addHot s.l.trackHot xs.length h) ∧
    (addHeadNoBalance s c).bug = s.bug ∧
    (addHeadNoBalance s c).l.trackHot = s.l.trackHot ∧
    ∀ x, x ∉ c :: xs → (addHeadNoBalance s c).m x = s.m x := by
  unfold addHeadNoBalance
  by_cases h0 : s.l.numNodes = 0
  · have hx : xs = [] := List.eq_nil_of_length_eq_zero (by rw [← r.len]; exact h0)
    subst hx
    have hh : h = 0 := Nat.le_zero.1 r.hle
    subst hh
    rw [if_pos h0]
    refine ⟨⟨by simp, rfl, rfl, rfl, ?_, ?_, by simp [addHot], ?_⟩, rfl, rfl, ?_⟩
    · intro i x hx
      cases i with
      | zero => simp at hx; subst hx; simp [setM_same, addHot]
      | succ i => simp at hx
    · simp [addHot, r.nhot]
    · simp [addHot, r.last]
    · intro x hx; exact setM_ne (by simpa using hx)
  · rw [if_neg h0]
    cases xs with
    | nil => exact absurd r.len h0
    | cons a as =>
      have hhead : s.l.head = some a := by rw [r.head]; rfl
      have hca : c ≠ a := fun e => hc (by rw [e]; simp)
      rw [hhead]
      have ha := r.node 0 a rfl
      simp only [↓reduceIte, List.getElem?_cons_succ, Nat.zero_add] at ha
      have hm2 : (setM (setM s.m c ⟨none, some a, s.l.trackHot⟩) a
          { setM s.m c ⟨none, some a, s.l.trackHot⟩ a with prev := some c }) a
          = { s.m a with prev := some c } := by
        rw [setM_same, setM_ne (Ne.symm hca)]
      refine ⟨⟨?_, ?_, rfl, ?_, ?_, ?_, ?_, ?_⟩, rfl, rfl, ?_⟩
      · exact List.nodup_cons.2 ⟨hc, r.nodup⟩
      · simp [r.len]
      · show s.l.tail = _; rw [r.tail]; simp
      · intro i x hx
        cases i with
        | zero =>
          simp at hx; subst hx
          show setM _ _ _ c = _
          rw [setM_ne hca, setM_same]
          simp only [↓reduceIte, Nat.zero_add, List.getElem?_cons_succ, List.getElem?_cons_zero,
            addHot, List.length_cons, Nat.succ_ne_zero]
          cases hk : s.l.trackHot <;> simp_all
        | succ i =>
          simp only [List.getElem?_cons_succ] at hx
          have hxc : x ≠ c := fun e => hc (by rw [← e]; exact List.mem_of_getElem? hx)
          have hn := r.node i x hx
          have hd : decide (i + 1 < addHot s.l.trackHot (a :: as).length h) = decide (i < h) := by
            unfold addHot
            simp only [List.length_cons, Nat.succ_ne_zero, ↓reduceIte]
            cases hk : s.l.trackHot
            · simp only [Bool.false_eq_true, ↓reduceIte]
              have := ht hk; simp [this]
            · simp
          by_cases hxa : x = a
          · have hi : i = 0 := idx_inj r.nodup hx (by rw [hxa]; rfl)
            subst hi
            subst hxa
            show setM _ _ _ x = _
            rw [hm2, hn]
            simp only [Nat.zero_add] at hd ⊢
            rw [hd]
            simp
          · show setM _ _ _ x = _
            rw [setM_ne hxa, setM_ne hxc, hn, hd]
            have hi : i ≠ 0 := fun e => hxa (by subst e; simpa using hx.symm)
            obtain ⟨k, rfl⟩ := Nat.exists_eq_succ_of_ne_zero hi
            simp
      · simp only [addHot, List.length_cons, Nat.succ_ne_zero, ↓reduceIte, r.nhot]
      · have := r.hle
        unfold addHot; simp only [List.length_cons] at *; split <;> (try split) <;> omega
      · simp only [hm2, ha]
        unfold addHot
        simp only [List.length_cons, Nat.succ_ne_zero, ↓reduceIte]
        cases hk : s.l.trackHot
        · have := ht hk
          subst this
          simp [r.last]
        · cases h with
          | zero => simp
          | succ h => simp [r.last]
      · intro x hx
        simp only [List.mem_cons, not_or] at hx
        show setM _ _ _ x = _
        rw [setM_ne hx.2.1, setM_ne hx.1]

/-- Balancing succeeds when the number of hot nodes is off by at most one. -/
theorem rep_balance {s : LS} {xs : List Nat} {h : Nat} (r : Rep s.m s.l xs h)
    (ht : s.l.trackHot = true)
    (hd : h ≤ xs.length / 2 + 1 ∧ xs.length / 2 ≤ h + 1) :
    Rep (balance s).m (balance s).l xs (xs.length / 2) ∧ (balance s).bug = s.bug ∧
    (balance s).l.trackHot = true ∧ ∀ x, x ∉ xs → (balance s).m x = s.m x := by
  unfold balance
  rw [if_neg (by simp [ht])]
  have e1 : s.l.numNodes / 2 = xs.length / 2 := by rw [r.len]
  simp only [e1, r.nhot]
  generalize htt : xs.length / 2 = t at hd
  have htl : t ≤ xs.length := by omega
  rcases Nat.lt_trichotomy h t with hlt | heq | hgt
  · have hch : ((t : Int) - (h : Int)) = 1 := by omega
    rw [hch]
    unfold balanceUpdateLastHot
    rw [if_pos (by omega)]
    have hb : h < xs.length := by omega
    have hxh : xs[h]? = some xs[h] := List.getElem?_eq_getElem hb
    have key : ∀ p : Nat, xs[h]? = some p →
        Rep (setM s.m p { s.m p with hot := true })
          { s.l with numHot := t, lastHot := some p } xs t := by
      intro p hp
      refine ⟨r.nodup, r.len, r.head, r.tail, ?_, rfl, htl, ?_⟩
      · intro i x hx
        by_cases hxp : x = p
        · subst hxp
          have := idx_inj r.nodup hx hp
          subst this
          rw [setM_same, r.node i x hx]
          have : decide (i < t) = true := by simp [hlt]
          rw [this]
        · rw [setM_ne hxp, r.node i x hx]
          have : i ≠ h := fun e => hxp (by subst e; rw [hx] at hp; exact Option.some.inj hp)
          have : decide (i < h) = decide (i < t) := by
            by_cases hih : i < h
            · simp [hih, Nat.lt_trans hih hlt]
            · have h1 : ¬ i < t := by omega
              simp [hih, h1]
          rw [this]
      · have : t = h + 1 := by omega
        subst this
        simp [hp]
    by_cases h0 : h = 0
    · have hl : s.l.lastHot = none := by rw [r.last, if_pos h0]
      have hh : s.l.head = some xs[h] := by rw [r.head, ← hxh, h0]
      simp only [hl, hh]
      refine ⟨?_, by simp, ht, ?_⟩
      · have := key _ hxh
        simpa [hh] using this
      · intro x hx
        exact setM_ne (fun e => hx (by rw [e]; exact List.getElem_mem hb))
    · have hl : s.l.lastHot = some xs[h - 1] := by
        rw [r.last, if_neg h0]; exact List.getElem?_eq_getElem (by omega)
      have hn : (s.m xs[h - 1]).next = some xs[h] := by
        rw [r.node (h - 1) _ (List.getElem?_eq_getElem (by omega))]
        simp only
        rw [show h - 1 + 1 = h by omega]; exact hxh
      simp only [hl, hn]
      refine ⟨?_, by simp, ht, ?_⟩
      · simpa using key _ hxh
      · intro x hx
        exact setM_ne (fun e => hx (by rw [e]; exact List.getElem_mem hb))
  · subst heq
    have hch : ((h : Int) - (h : Int)) = 0 := by omega
    rw [hch]
    simp only [balanceUpdateLastHot]
    refine ⟨?_, by simp, by simpa using ht, by simp⟩
    simp only [Int.lt_irrefl, gt_iff_lt, ↓reduceIte]
    exact { r with nhot := rfl }
  · have hch : ((t : Int) - (h : Int)) = -1 := by omega
    rw [hch]
    unfold balanceUpdateLastHot
    rw [if_neg (by omega), if_pos (by omega)]
    have h0 : h ≠ 0 := by omega
    have hb : h - 1 < xs.length := by have := r.hle; omega
    have hp : xs[h - 1]? = some xs[h - 1] := List.getElem?_eq_getElem hb
    have hl : s.l.lastHot = some xs[h - 1] := by
      rw [r.last, if_neg h0]; exact hp
    simp only [hl]
    have hpv : (s.m xs[h - 1]).prev = if t = 0 then none else xs[t - 1]? := by
      rw [r.node (h - 1) _ hp]
      simp only
      rw [show h - 1 = t by omega]
    refine ⟨⟨r.nodup, r.len, r.head, r.tail, ?_, rfl, htl, hpv⟩, by simp, ht, ?_⟩
    · intro i x hx
      by_cases hxp : x = xs[h - 1]
      · have := idx_inj r.nodup hx (by rw [hxp]; exact hp)
        rw [hxp, setM_same, ← hxp, r.node i x hx]
        have h1 : ¬ i < t := by omega
        simp [h1]
      · rw [setM_ne hxp, r.node i x hx]
        have : i ≠ h - 1 := fun e => hxp (by
          subst e; rw [hx] at hp; exact Option.some.inj hp)
        have : decide (i < h) = decide (i < t) := by
          by_cases hih : i < t
          · have : i < h := by omega
            simp [hih, this]
          · have h1 : ¬ i < h := by omega
            simp [hih, h1]
        rw [this]
    · intro x hx
      exact setM_ne (fun e => hx (by rw [e]; exact List.getElem_mem hb))

theorem balance_off {s : LS} (h : s.l.trackHot = false) : balance s = s := by
  unfold balance; rw [if_pos h]

theorem removeUpdatePtrs_m (s : LS) (c : Nat) :
    (removeUpdatePtrs s c).m = (unlinkNode s c).m := by
  unfold removeUpdatePtrs; simp only; split <;> rfl

/-- Nodes after unlinking the element at index `k`. -/
theorem unlink_node {s : LS} {xs : List Nat} {h k c : Nat} (r : Rep s.m s.l xs h)
    (hk : xs[k]? = some c) (j x : Nat) (hx : xs[j]? = some x) (hj : j ≠ k) :
    (removeUpdatePtrs s c).m x =
      ⟨if j = k + 1 then (if k = 0 then none else xs[k - 1]?) else (s.m x).prev,
       if j + 1 = k then xs[k + 1]? else (s.m x).next, (s.m x).hot⟩ := by
  have hc := r.node k c hk
  have hxn := r.node j x hx
  have hmm : (removeUpdatePtrs s c).m x =
    (match (s.m c).prev, (s.m c).next with
    | none, none => s.m
    | none, some n => setM s.m n { s.m n with prev := none }
    | some p, none => setM s.m p { s.m p with next := none }
    | some p, some n =>
      setM (setM s.m p { s.m p with next := some n }) n
        { (setM s.m p { s.m p with next := some n }) n with prev := some p }) x := by
    rw [removeUpdatePtrs_m]
    unfold unlinkNode
    cases (s.m c).prev <;> cases (s.m c).next <;> rfl
  rw [hmm]
  have hkl : k < xs.length := (List.getElem?_eq_some_iff.1 hk).1
  have hp : (s.m c).prev = if k = 0 then none else xs[k - 1]? := by rw [hc]
  have hn : (s.m c).next = xs[k + 1]? := by rw [hc]
  have hnx : ∀ n, xs[k + 1]? = some n → (x = n ↔ j = k + 1) := fun n e =>
    ⟨fun e' => idx_inj r.nodup hx (by rw [e']; exact e), fun e' => by
      subst e'; rw [hx] at e; exact Option.some.inj e⟩
  have hpx : ∀ p, k ≠ 0 → xs[k - 1]? = some p → (x = p ↔ j + 1 = k) := fun p h0 e =>
    ⟨fun e' => by
      have := idx_inj r.nodup hx (by rw [e']; exact e)
      omega, fun e' => by
      have : j = k - 1 := by omega
      subst this; rw [hx] at e; exact Option.some.inj e⟩
  have hkn : xs[k + 1]? = none → j ≠ k + 1 := fun e e' => by
    subst e'; rw [hx] at e; exact absurd e (by simp)
  rw [hp, hn]
  by_cases h0 : k = 0
  · subst h0
    simp only [↓reduceIte, Nat.zero_add]
    have hj1 : ¬ (j + 1 = 0) := by omega
    rw [if_neg hj1]
    cases hn1 : xs[1]? with
    | none =>
      have := hkn (by simpa using hn1)
      simp only [Nat.zero_add] at this
      simp [this]
    | some n =>
      have := hnx n (by simpa using hn1)
      simp only [Nat.zero_add] at this
      by_cases hj1 : j = 1
      · have e := this.2 hj1
        subst e
        simp [setM_same, hj1]
      · have e : x ≠ n := fun e => hj1 (this.1 e)
        simp [setM_ne e, hj1]
  · have hpl : xs[k - 1]? = some xs[k - 1] := List.getElem?_eq_getElem (by omega)
    rw [if_neg h0, hpl]
    have h2 := hpx _ h0 hpl
    cases hn1 : xs[k + 1]? with
    | none =>
      have h3 := hkn hn1
      rw [if_neg h3]
      by_cases hj1 : j + 1 = k
      · have e := h2.2 hj1
        subst e
        simp [setM_same, hj1]
      · have e : x ≠ xs[k - 1] := fun e => hj1 (h2.1 e)
        simp [setM_ne e, hj1]
    | some n =>
      have h3 := hnx n hn1
      by_cases hj1 : j + 1 = k
      · have e := h2.2 hj1
        have hne : x ≠ n := fun e' => by have := h3.1 e'; omega
        have hj2 : ¬ j = k + 1 := by omega
        simp only [setM_ne hne, if_neg hj2, if_pos hj1]
        rw [e, setM_same]
      · have e : x ≠ xs[k - 1] := fun e => hj1 (h2.1 e)
        by_cases hj2 : j = k + 1
        · have e2 := h3.2 hj2
          subst e2
          rw [if_pos hj2, if_neg hj1]
          show setM _ x _ x = _
          rw [setM_same, setM_ne e]
        · have e2 : x ≠ n := fun e => hj2 (h3.1 e)
          rw [if_neg hj2, if_neg hj1]
          show setM _ n _ x = _
          rw [setM_ne e2, setM_ne e]

/-- Unlinking touches only the list. -/
theorem unlink_frame {s : LS} {xs : List Nat} {h k c : Nat} (r : Rep s.m s.l xs h)
    (hk : xs[k]? = some c) (x : Nat) (hx : x ∉ xs) : (removeUpdatePtrs s c).m x = s.m x := by
  have hc := r.node k c hk
  have hp : ∀ p, (s.m c).prev = some p → x ≠ p := by
    intro p hp e
    rw [hc] at hp
    simp only at hp
    split at hp
    · exact absurd hp (by simp)
    · exact hx (by rw [e]; exact List.mem_of_getElem? hp)
  have hn : ∀ p, (s.m c).next = some p → x ≠ p := by
    intro p hp e
    rw [hc] at hp
    exact hx (by rw [e]; exact List.mem_of_getElem? hp)
  rw [removeUpdatePtrs_m]
  unfold unlinkNode
  cases h1 : (s.m c).prev with
  | none =>
    cases h2 : (s.m c).next with
    | none => rfl
    | some n => exact setM_ne (hn n h2)
  | some q =>
    cases h2 : (s.m c).next with
    | none => exact setM_ne (hp q h1)
    | some n => exact (setM_ne (hn n h2)).trans (setM_ne (hp q h1))

/-- List header after unlinking. -/
theorem unlink_list {s : LS} {xs : List Nat} {h k c : Nat} (r : Rep s.m s.l xs h)
    (hk : xs[k]? = some c) :
    (removeUpdatePtrs s c).l =
      { s.l with
        head := (xs.eraseIdx k)[0]?
        tail := (xs.eraseIdx k)[(xs.eraseIdx k).length - 1]?
        lastHot := if h = k + 1 then (if k = 0 then none else xs[k - 1]?) else s.l.lastHot } ∧
    (removeUpdatePtrs s c).bug = s.bug := by
  have hc := r.node k c hk
  have hkl : k < xs.length := (List.getElem?_eq_some_iff.1 hk).1
  have hp : (s.m c).prev = if k = 0 then none else xs[k - 1]? := by rw [hc]
  have hn : (s.m c).next = xs[k + 1]? := by rw [hc]
  have hlast : s.l.lastHot = some c ↔ h = k + 1 := by
    rw [r.last]
    split
    · constructor
      · intro e; exact absurd e (by simp)
      · intro e; omega
    · constructor
      · intro e; have := idx_inj r.nodup e hk; omega
      · intro e; subst e; simpa using hk
  have hlen : (xs.eraseIdx k).length = xs.length - 1 := List.length_eraseIdx_of_lt hkl
  have hhd : (xs.eraseIdx k)[0]? = if k = 0 then xs[1]? else s.l.head := by
    rw [List.getElem?_eraseIdx, r.head]
    by_cases h0 : k = 0
    · simp [h0]
    · have : 0 < k := by omega
      simp [h0, this]
  have htl : (xs.eraseIdx k)[(xs.eraseIdx k).length - 1]? =
      if k + 1 = xs.length then (if k = 0 then none else xs[k - 1]?) else s.l.tail := by
    rw [hlen, List.getElem?_eraseIdx, r.tail]
    by_cases h0 : k + 1 = xs.length
    · rw [if_pos h0]
      by_cases hk0 : k = 0
      · subst hk0
        have : xs.length = 1 := by omega
        rw [if_pos rfl, this]
        simp only [Nat.sub_self, Nat.zero_sub, Nat.lt_irrefl, ↓reduceIte]
        exact List.getElem?_eq_none (by omega)
      · rw [if_neg hk0, if_pos (by omega)]
        congr 1; omega
    · rw [if_neg h0, if_neg (by omega)]
      congr 1; omega
  rw [hhd, htl]
  unfold removeUpdatePtrs unlinkNode
  rw [hp, hn]
  by_cases h0 : k = 0
  · subst h0
    simp only [↓reduceIte, Nat.zero_add] at *
    by_cases h1 : 1 = xs.length
    · have hx1 : xs[1]? = none := List.getElem?_eq_none (by omega)
      simp only [hx1, if_pos h1]
      by_cases hh : h = 1
      · rw [if_pos (hlast.2 hh), if_pos hh]; simp
      · rw [if_neg (fun e => hh (hlast.1 e)), if_neg hh]; simp
    · have hx1 : xs[1]? = some xs[1] := List.getElem?_eq_getElem (by omega)
      simp only [hx1, if_neg h1]
      by_cases hh : h = 1
      · rw [if_pos (hlast.2 hh), if_pos hh]; simp
      · rw [if_neg (fun e => hh (hlast.1 e)), if_neg hh]; simp
  · have hpl : xs[k - 1]? = some xs[k - 1] := List.getElem?_eq_getElem (by omega)
    simp only [if_neg h0, hpl]
    by_cases h1 : k + 1 = xs.length
    · have hx1 : xs[k + 1]? = none := List.getElem?_eq_none (by omega)
      simp only [hx1, if_pos h1]
      by_cases hh : h = k + 1
      · rw [if_pos (hlast.2 hh), if_pos hh]; simp
      · rw [if_neg (fun e => hh (hlast.1 e)), if_neg hh]; simp
    · have hx1 : xs[k + 1]? = some xs[k + 1] := List.getElem?_eq_getElem (by omega)
      simp only [hx1, if_neg h1]
      by_cases hh : h = k + 1
      · rw [if_pos (hlast.2 hh), if_pos hh]; simp
      · rw [if_neg (fun e => hh (hlast.1 e)), if_neg hh]; simp

theorem rep_removeNoBalance {s : LS} {xs : List Nat} {h k c : Nat} (r : Rep s.m s.l xs h)
    (hk : xs[k]? = some c) :
    Rep (removeNoBalance s c).m (removeNoBalance s c).l (xs.eraseIdx k)
      (if k < h then h - 1 else h) ∧
    (removeNoBalance s c).bug = s.bug ∧
    (removeNoBalance s c).l.trackHot = s.l.trackHot ∧
    ∀ x, x ∉ xs → (removeNoBalance s c).m x = s.m x := by
  have hkl : k < xs.length := (List.getElem?_eq_some_iff.1 hk).1
  have hlen : (xs.eraseIdx k).length = xs.length - 1 := List.length_eraseIdx_of_lt hkl
  have hc := r.node k c hk
  obtain ⟨hL, hB⟩ := unlink_list r hk
  have hle := r.hle
  unfold removeNoBalance
  simp only [hL, hB]
  refine ⟨⟨?_, ?_, rfl, rfl, ?_, ?_, ?_, ?_⟩, ?_, trivial, ?_⟩
  · exact List.Nodup.sublist (List.eraseIdx_sublist xs k) r.nodup
  · simp only [hlen, r.len]
  · intro i x hx
    rw [List.getElem?_eraseIdx] at hx
    have hcx : x ≠ c := by
      intro e
      subst e
      split at hx
      · have := idx_inj r.nodup hx hk; omega
      · have := idx_inj r.nodup hx hk; omega
    rw [setM_ne hcx]
    simp only [List.getElem?_eraseIdx]
    by_cases hik : i < k
    · rw [if_pos hik] at hx
      rw [unlink_node r hk i x hx (by omega), r.node i x hx]
      rw [if_neg (by omega)]
      have hpv : (if i - 1 < k then xs[i - 1]? else xs[i - 1 + 1]?) = xs[i - 1]? := if_pos (by omega)
      have hnx : (if i + 1 < k then xs[i + 1]? else xs[i + 1 + 1]?) =
          if i + 1 = k then xs[k + 1]? else xs[i + 1]? := by
        by_cases e : i + 1 = k
        · rw [if_pos e, if_neg (by omega), e]
        · rw [if_neg e, if_pos (by omega)]
      have hh : decide (i < if k < h then h - 1 else h) = decide (i < h) := by
        by_cases e : k < h
        · rw [if_pos e]
          have h1 : i < h := by omega
          have h2 : i < h - 1 := by omega
          simp [h1, h2]
        · rw [if_neg e]
      rw [hpv, hnx, hh]
    · rw [if_neg hik] at hx
      rw [unlink_node r hk (i + 1) x hx (by omega), r.node (i + 1) x hx]
      have hpv : (if i + 1 = k + 1 then (if k = 0 then none else xs[k - 1]?) else
            (if i + 1 = 0 then none else xs[i + 1 - 1]?)) =
          (if i = 0 then none else if i - 1 < k then xs[i - 1]? else xs[i - 1 + 1]?) := by
        by_cases e : i = k
        · rw [if_pos (by omega), e]
          by_cases hk0 : k = 0
          · simp [hk0]
          · rw [if_neg hk0, if_neg hk0, if_pos (by omega)]
        · rw [if_neg (by omega), if_neg (by omega), if_neg (by omega), if_neg (by omega)]
          congr 1; omega
      have hnx : (if i + 1 + 1 = k then xs[k + 1]? else xs[i + 1 + 1]?) =
          (if i + 1 < k then xs[i + 1]? else xs[i + 1 + 1]?) := by
        rw [if_neg (by omega), if_neg (by omega)]
      have hh : decide (i + 1 < h) = decide (i < if k < h then h - 1 else h) := by
        by_cases e : k < h
        · rw [if_pos e]
          exact decide_eq_decide.2 (by omega)
        · rw [if_neg e]
          exact decide_eq_decide.2 (by omega)
      simp only
      rw [hpv, hnx, hh]
  · simp only [hc, r.nhot, decide_eq_true_eq]
  · rw [hlen]; split <;> omega
  · simp only [List.getElem?_eraseIdx]
    by_cases e : h = k + 1
    · rw [if_pos e]
      by_cases hk0 : k = 0
      · subst e; simp [hk0]
      · subst e
        have h1 : (if k < k + 1 then k + 1 - 1 else k + 1) = k := by rw [if_pos (by omega)]; omega
        rw [h1, if_neg hk0, if_neg hk0, if_pos (by omega)]
    · rw [if_neg e, r.last]
      by_cases h0 : h = 0
      · simp [h0]
      · rw [if_neg h0]
        by_cases hkh : k < h
        · rw [if_pos hkh, if_neg (by omega), if_neg (by omega)]
          congr 1; omega
        · rw [if_neg hkh, if_neg h0, if_pos (by omega)]
  · have h1 : (s.l.head == some c) = decide (k = 0) := by
      rw [r.head]
      by_cases hk0 : k = 0
      · subst hk0; simp [hk]
      · have : xs[0]? ≠ some c := fun e => hk0 (idx_inj r.nodup hk e)
        simp [hk0, this]
    have h2 : (s.l.tail == some c) = decide (k + 1 = xs.length) := by
      rw [r.tail]
      by_cases hk0 : k + 1 = xs.length
      · have : xs.length - 1 = k := by omega
        simp [this, hk, hk0]
      · have : xs[xs.length - 1]? ≠ some c := fun e => hk0 (by
          have := idx_inj r.nodup hk e; omega)
        simp [hk0, this]
    rw [h1, h2, hc]
    have h3 : ((if k = 0 then none else xs[k - 1]?) != none) = !decide (k = 0) := by
      by_cases hk0 : k = 0
      · simp [hk0]
      · rw [if_neg hk0, List.getElem?_eq_getElem (by omega)]; simp [hk0]
    have h4 : (xs[k + 1]? != none) = !decide (k + 1 = xs.length) := by
      by_cases hk0 : k + 1 = xs.length
      · rw [List.getElem?_eq_none (by omega)]; simp [hk0]
      · rw [List.getElem?_eq_getElem (by omega)]; simp [hk0]
    rw [h3, h4]
    cases decide (k = 0) <;> cases decide (k + 1 = xs.length) <;> simp
  · intro x hx
    have : x ≠ c := fun e => hx (by rw [e]; exact List.mem_of_getElem? hk)
    rw [setM_ne this]
    exact unlink_frame r hk x hx

/-- A list in balance: half of the nodes are hot if hotness is tracked. -/
def Bal (m : Nat → Meta) (l : LList) (xs : List Nat) : Prop :=
  Rep m l xs (if l.trackHot then xs.length / 2 else 0)

theorem bal_addNoBalance_free {s : LS} {xs : List Nat} {c : Nat} (r : Bal s.m s.l xs)
    (hc : c ∉ xs) (ht : s.l.trackHot = false) :
    Bal (addHeadNoBalance s c).m (addHeadNoBalance s c).l (c :: xs) ∧
    (addHeadNoBalance s c).bug = s.bug ∧
    (addHeadNoBalance s c).l.trackHot = s.l.trackHot ∧
    ∀ x, x ∉ c :: xs → (addHeadNoBalance s c).m x = s.m x := by
  have r' := r
  unfold Bal at r' ⊢
  rw [ht] at r'
  obtain ⟨h1, h2, h3, h4⟩ := rep_addNoBalance r' hc (fun _ => rfl)
  refine ⟨?_, h2, h3, h4⟩
  rw [h3, ht]
  unfold addHot at h1
  simpa [ht] using h1

theorem bal_addHead {s : LS} {xs : List Nat} {c : Nat} (r : Bal s.m s.l xs) (hc : c ∉ xs) :
    Bal (addHead s c).m (addHead s c).l (c :: xs) ∧ (addHead s c).bug = s.bug ∧
    (addHead s c).l.trackHot = s.l.trackHot ∧
    ∀ x, x ∉ c :: xs → (addHead s c).m x = s.m x := by
  cases ht : s.l.trackHot with
  | false =>
    obtain ⟨h1, h2, h3, h4⟩ := bal_addNoBalance_free r hc ht
    unfold addHead
    rw [balance_off (by rw [h3, ht])]
    exact ⟨h1, h2, by rw [h3, ht], h4⟩
  | true =>
    unfold Bal at r
    rw [ht] at r
    obtain ⟨h1, h2, h3, h4⟩ := rep_addNoBalance r hc (fun e => by rw [ht] at e; exact absurd e (by simp))
    have hb := rep_balance h1 (by rw [h3, ht]) (by
      unfold addHot
      simp only [ht, if_true, List.length_cons]
      split <;> omega)
    unfold addHead Bal
    refine ⟨?_, hb.2.1.trans h2, hb.2.2.1, fun x hx => (hb.2.2.2 x hx).trans (h4 x hx)⟩
    rw [hb.2.2.1, if_pos rfl]
    exact hb.1

theorem erase_idx {xs : List Nat} (hn : xs.Nodup) {k c : Nat} (hk : xs[k]? = some c) :
    xs.eraseIdx k = xs.erase c := by
  induction xs generalizing k with
  | nil => simp
  | cons a as ih =>
    cases k with
    | zero => simp at hk; subst hk; simp
    | succ k =>
      simp only [List.getElem?_cons_succ] at hk
      have hne : a ≠ c := fun e => (List.nodup_cons.1 hn).1 (by
        rw [e]; exact List.mem_of_getElem? hk)
      rw [List.eraseIdx_cons_succ, List.erase_cons_tail (by simpa using hne),
        ih (List.nodup_cons.1 hn).2 hk]

theorem bal_remove {s : LS} {xs : List Nat} {c : Nat} (r : Bal s.m s.l xs) (hc : c ∈ xs) :
    Bal (remove s c).m (remove s c).l (xs.erase c) ∧ (remove s c).bug = s.bug ∧
    (remove s c).l.trackHot = s.l.trackHot ∧
    ∀ x, x ∉ xs → (remove s c).m x = s.m x := by
  obtain ⟨k, hk⟩ := List.getElem?_of_mem hc
  have hkl : k < xs.length := (List.getElem?_eq_some_iff.1 hk).1
  unfold Bal at r
  have hlen : (xs.eraseIdx k).length = xs.length - 1 := List.length_eraseIdx_of_lt hkl
  obtain ⟨h1, h2, h3, h4⟩ := rep_removeNoBalance r hk
  rw [← erase_idx r.nodup hk]
  unfold remove Bal
  cases ht : s.l.trackHot with
  | false =>
    rw [balance_off (by rw [h3, ht])]
    refine ⟨?_, h2, by rw [h3, ht], h4⟩
    rw [ht] at h1
    rw [h3, ht]
    simpa using h1
  | true =>
    rw [ht] at h1
    have hb := rep_balance h1 (by rw [h3, ht]) (by
      rw [hlen]; simp only [if_true]; split <;> omega)
    refine ⟨?_, hb.2.1.trans h2, hb.2.2.1, fun x hx => (hb.2.2.2 x (fun e => hx
      ((List.eraseIdx_sublist xs k).subset e))).trans (h4 x hx)⟩
    rw [hb.2.2.1, if_pos rfl]
    exact hb.1

theorem bal_setHot {s : LS} {xs : List Nat} {c : Nat} (r : Bal s.m s.l xs) (hc : c ∈ xs) :
    Bal (setHot s c).m (setHot s c).l (c :: xs.erase c) ∧ (setHot s c).bug = s.bug ∧
    (setHot s c).l.trackHot = s.l.trackHot ∧
    ∀ x, x ∉ xs → (setHot s c).m x = s.m x := by
  obtain ⟨k, hk⟩ := List.getElem?_of_mem hc
  have hkl : k < xs.length := (List.getElem?_eq_some_iff.1 hk).1
  unfold Bal at r
  have hlen : (xs.eraseIdx k).length = xs.length - 1 := List.length_eraseIdx_of_lt hkl
  obtain ⟨h1, h2, h3, h4⟩ := rep_removeNoBalance r hk
  have hnc : c ∉ xs.eraseIdx k := by
    rw [erase_idx r.nodup hk]; exact fun e => by
      rw [List.Nodup.mem_erase_iff r.nodup] at e; exact e.1 rfl
  have hsub : ∀ x, x ∉ xs → x ∉ c :: xs.eraseIdx k := fun x hx e => by
    rcases List.mem_cons.1 e with e | e
    · exact hx (by rw [e]; exact hc)
    · exact hx ((List.eraseIdx_sublist xs k).subset e)
  obtain ⟨g1, g2, g3, g4⟩ := rep_addNoBalance h1 hnc (fun e => by
    rw [h3] at e; simp [e])
  rw [← erase_idx r.nodup hk]
  unfold setHot Bal
  cases ht : s.l.trackHot with
  | false =>
    rw [balance_off (by rw [g3, h3, ht])]
    refine ⟨?_, g2.trans h2, by rw [g3, h3, ht], fun x hx => (g4 x (hsub x hx)).trans (h4 x hx)⟩
    rw [h3, ht] at g1
    rw [g3, h3, ht]
    unfold addHot at g1
    simpa using g1
  | true =>
    rw [h3, ht] at g1
    have hb := rep_balance g1 (by rw [g3, h3, ht]) (by
      unfold addHot
      simp only [List.length_cons, hlen, if_true]
      split <;> split <;> omega)
    refine ⟨?_, hb.2.1.trans (g2.trans h2), hb.2.2.1, fun x hx =>
      (hb.2.2.2 x (hsub x hx)).trans ((g4 x (hsub x hx)).trans (h4 x hx))⟩
    rw [hb.2.2.1, if_pos rfl]
    exact hb.1

/-! ## All lists of the cache -/

/-- Replace one sequence. -/
def updSeq (q : Key → List Nat) (k : Key) (xs : List Nat) : Key → List Nat :=
  fun k' => if k' = k then xs else q k'

/-- The lists represent the sequences `q`, which do not share lines. -/
structure Lists (s : Cache) (q : Key → List Nat) : Prop where
  bal : ∀ k, Bal s.m (s.lists k) (q k)
  track : ∀ k, (s.lists k).trackHot = (k.part != freeId)
  disj : ∀ k k' c, c ∈ q k → c ∈ q k' → k = k'
  bug : s.bug = false

theorem lists_congr {s t : Cache} {q : Key → List Nat} (h : Lists s q) (h1 : t.m = s.m)
    (h2 : t.lists = s.lists) (h3 : t.bug = s.bug) : Lists t q :=
  ⟨by rw [h1, h2]; exact h.bal, by rw [h2]; exact h.track, h.disj, by rw [h3]; exact h.bug⟩

theorem bal_frame {m m' : Nat → Meta} {l : LList} {xs : List Nat} (h : Bal m l xs)
    (hm : ∀ x ∈ xs, m' x = m x) : Bal m' l xs := Rep.frame h hm

/-- Generic step: one list operation that may also take in the line `c`. -/
theorem lists_on {s : Cache} {q : Key → List Nat} (h : Lists s q) (k : Key) (f : LS → LS)
    (xs : List Nat) (S : Nat → Prop)
    (hb : Bal (f ⟨s.m, s.lists k, s.bug⟩).m (f ⟨s.m, s.lists k, s.bug⟩).l xs)
    (hbug : (f ⟨s.m, s.lists k, s.bug⟩).bug = s.bug)
    (htr : (f ⟨s.m, s.lists k, s.bug⟩).l.trackHot = (s.lists k).trackHot)
    (hm : ∀ x, ¬ S x → (f ⟨s.m, s.lists k, s.bug⟩).m x = s.m x)
    (hS : ∀ k' x, k' ≠ k → x ∈ q k' → ¬ S x)
    (hd : ∀ k' x, k' ≠ k → x ∈ q k' → x ∉ xs) :
    Lists (s.on k f) (updSeq q k xs) := by
  refine ⟨?_, ?_, ?_, hbug.trans h.bug⟩
  · intro k'
    unfold updSeq
    by_cases hk : k' = k
    · subst hk
      simp only [Cache.on, if_true]
      exact hb
    · simp only [Cache.on, if_neg hk]
      exact bal_frame (h.bal k') (fun x hx => hm x (hS k' x hk hx))
  · intro k'
    by_cases hk : k' = k
    · subst hk
      simp only [Cache.on, if_true]
      exact htr.trans (h.track k')
    · simp only [Cache.on, if_neg hk]
      exact h.track k'
  · intro k1 k2 c h1 h2
    unfold updSeq at h1 h2
    by_cases e1 : k1 = k <;> by_cases e2 : k2 = k
    · rw [e1, e2]
    · rw [if_pos e1] at h1; rw [if_neg e2] at h2
      exact absurd h1 (hd k2 c e2 h2)
    · rw [if_neg e1] at h1; rw [if_pos e2] at h2
      exact absurd h2 (hd k1 c e1 h1)
    · rw [if_neg e1] at h1; rw [if_neg e2] at h2
      exact h.disj k1 k2 c h1 h2

theorem lists_add {s : Cache} {q : Key → List Nat} (h : Lists s q) (k : Key) (c : Nat)
    (hc : ∀ k', c ∉ q k') :
    Lists (s.on k (fun x => addHead x c)) (updSeq q k (c :: q k)) := by
  obtain ⟨h1, h2, h3, h4⟩ := bal_addHead (s := ⟨s.m, s.lists k, s.bug⟩) (h.bal k) (hc k)
  refine lists_on h k _ _ (fun x => x ∈ c :: q k) h1 h2 h3 h4 ?_ ?_
  all_goals
    intro k' x hk hx e
    rcases List.mem_cons.1 e with e | e
    · exact hc k' (by rw [← e]; exact hx)
    · exact hk (h.disj k' k x hx e)

theorem lists_add_free {s : Cache} {q : Key → List Nat} (h : Lists s q) (k : Key) (c : Nat)
    (hk : k.part = freeId) (hc : ∀ k', c ∉ q k') :
    Lists (s.on k (fun x => addHeadNoBalance x c)) (updSeq q k (c :: q k)) := by
  obtain ⟨h1, h2, h3, h4⟩ := bal_addNoBalance_free (s := ⟨s.m, s.lists k, s.bug⟩) (h.bal k) (hc k)
    (by rw [h.track k, hk]; simp)
  refine lists_on h k _ _ (fun x => x ∈ c :: q k) h1 h2 h3 h4 ?_ ?_
  all_goals
    intro k' x hk hx e
    rcases List.mem_cons.1 e with e | e
    · exact hc k' (by rw [← e]; exact hx)
    · exact hk (h.disj k' k x hx e)

theorem lists_remove {s : Cache} {q : Key → List Nat} (h : Lists s q) (k : Key) (c : Nat)
    (hc : c ∈ q k) :
    Lists (s.on k (fun x => remove x c)) (updSeq q k ((q k).erase c)) := by
  obtain ⟨h1, h2, h3, h4⟩ := bal_remove (s := ⟨s.m, s.lists k, s.bug⟩) (h.bal k) hc
  refine lists_on h k _ _ (fun x => x ∈ q k) h1 h2 h3 h4 ?_ ?_
  · intro k' x hk hx e
    exact hk (h.disj k' k x hx e)
  · intro k' x hk hx e
    exact hk (h.disj k' k x hx (List.mem_of_mem_erase e))

theorem lists_touch {s : Cache} {q : Key → List Nat} (h : Lists s q) (k : Key) (c : Nat)
    (hc : c ∈ q k) :
    Lists (s.on k (fun x => setHot x c)) (updSeq q k (c :: (q k).erase c)) := by
  obtain ⟨h1, h2, h3, h4⟩ := bal_setHot (s := ⟨s.m, s.lists k, s.bug⟩) (h.bal k) hc
  refine lists_on h k _ _ (fun x => x ∈ q k) h1 h2 h3 h4 ?_ ?_
  · intro k' x hk hx e
    exact hk (h.disj k' k x hx e)
  · intro k' x hk hx e
    rcases List.mem_cons.1 e with e | e
    · subst e; exact hk (h.disj k' k x hx hc)
    · exact hk (h.disj k' k x hx (List.mem_of_mem_erase e))

/-- Sequences after moving a line. -/
def moveSeq (q : Key → List Nat) (c : Nat) (src dst : Key) : Key → List Nat :=
  let q1 := updSeq q src ((q src).erase c)
  updSeq q1 dst (c :: q1 dst)

theorem lists_move {s : Cache} {q : Key → List Nat} (h : Lists s q) (src dst : Key) (c : Nat)
    (hc : c ∈ q src) : Lists (s.move c src dst) (moveSeq q c src dst) := by
  have h1 := lists_remove h src c hc
  refine lists_add h1 dst c ?_
  intro k' hk'
  unfold updSeq at hk'
  by_cases e : k' = src
  · rw [if_pos e] at hk'
    have := (h.bal src).nodup
    rw [List.Nodup.mem_erase_iff this] at hk'
    exact hk'.1 rfl
  · rw [if_neg e] at hk'
    exact e (h.disj k' src c hk' hc)

theorem mem_moveSeq {q : Key → List Nat} {c x : Nat} {src dst k : Key} (hn : (q src).Nodup)
    (hc : c ∈ q src) (hd : ∀ k k' c, c ∈ q k → c ∈ q k' → k = k') :
    x ∈ moveSeq q c src dst k ↔ if x = c then k = dst else x ∈ q k := by
  have key : ∀ k', x ∈ updSeq q src ((q src).erase c) k' ↔ x ≠ c ∧ x ∈ q k' := by
    intro k'
    unfold updSeq
    by_cases e : k' = src
    · rw [if_pos e, e, List.Nodup.mem_erase_iff hn]
    · rw [if_neg e]
      exact ⟨fun h => ⟨fun e' => e (hd k' src c (by rw [← e']; exact h) hc), h⟩, fun h => h.2⟩
  unfold moveSeq
  generalize hq : updSeq q src ((q src).erase c) = q1 at key
  unfold updSeq
  by_cases e : k = dst
  · rw [if_pos e, List.mem_cons, key, e]
    split <;> simp_all
  · rw [if_neg e, key]
    split <;> simp_all

/-- One line changes its value in a count. -/
theorem count_upd (f : Nat → Nat) (N c a p : Nat) (hc : c < N) :
    ((List.range N).countP (fun x => (if x = c then a else f x) == p) : Int) =
      ((List.range N).countP (fun x => f x == p) : Int)
        - (if p = f c then 1 else 0) + (if p = a then 1 else 0) := by
  have out : ∀ M, M ≤ c → (List.range M).countP (fun x => (if x = c then a else f x) == p) =
      (List.range M).countP (fun x => f x == p) := by
    intro M hM
    apply List.countP_congr
    intro x hx
    have : x ≠ c := by have := List.mem_range.1 hx; omega
    simp [this]
  have main : ∀ M, c < M →
      ((List.range M).countP (fun x => (if x = c then a else f x) == p) : Int) =
      ((List.range M).countP (fun x => f x == p) : Int)
        - (if p = f c then 1 else 0) + (if p = a then 1 else 0) := by
    intro M
    induction M with
    | zero => intro h; omega
    | succ M ih =>
      intro h
      rw [List.range_succ, List.countP_append, List.countP_append]
      by_cases e : c = M
      · subst e
        rw [out c (Nat.le_refl _)]
        simp only [List.countP_cons, List.countP_nil, if_true, beq_iff_eq]
        have e1 : (a = p) = (p = a) := propext ⟨Eq.symm, Eq.symm⟩
        have e2 : (f c = p) = (p = f c) := propext ⟨Eq.symm, Eq.symm⟩
        simp only [e1, e2]
        split <;> split <;> omega
      · have e' : M ≠ c := fun h => e h.symm
        have := ih (by omega)
        simp only [List.countP_cons, List.countP_nil, if_neg e']
        omega
  exact main N hc

/-- The lists hold the lines `0..N-1`, each on the list given by its partition and dirtiness. -/
structure Own (N : Nat) (s : Cache) (q : Key → List Nat) : Prop where
  lists : Lists s q
  mem : ∀ k c, c ∈ q k ↔ c < N ∧ k = s.keyOf c
  size : ∀ p, s.size p = ((List.range N).countP (fun c => s.part c == p) : Int)

theorem own_repart {N : Nat} {s : Cache} {q : Key → List Nat} (h : Own N s q) (c dst : Nat)
    (hc : c < N) : Own N (s.repart c dst)
      (moveSeq q c (s.keyOf c) ((s.repart c dst).keyOf c)) := by
  have hkey : (s.repart c dst).keyOf c = getKey dst (c % numLru) (!s.dirty c) := by
    simp [Cache.repart, Cache.keyOf, Cache.move, Cache.on]
  have hcm : c ∈ q (s.keyOf c) := (h.mem _ _).2 ⟨hc, rfl⟩
  refine ⟨?_, ?_, ?_⟩
  · rw [hkey]
    exact lists_congr (lists_move h.lists _ _ c hcm) rfl rfl rfl
  · intro k x
    rw [mem_moveSeq (h.lists.bal _).nodup hcm h.lists.disj]
    by_cases e : x = c
    · rw [if_pos e]; subst e; simp [hc]
    · rw [if_neg e, h.mem]
      have : (s.repart c dst).keyOf x = s.keyOf x := by
        simp [Cache.repart, Cache.keyOf, Cache.move, Cache.on, e]
      rw [this]
  · intro p
    have := count_upd s.part N c dst p hc
    simp only [Cache.repart, Cache.move, Cache.on]
    rw [this, h.size]

theorem own_touch {N : Nat} {s : Cache} {q : Key → List Nat} (h : Own N s q) (c : Nat)
    (hc : c < N) : Own N (s.touch c) (updSeq q (s.keyOf c) (c :: (q (s.keyOf c)).erase c)) := by
  have hcm : c ∈ q (s.keyOf c) := (h.mem _ _).2 ⟨hc, rfl⟩
  refine ⟨lists_touch h.lists _ c hcm, ?_, h.size⟩
  intro k x
  have : (s.touch c).keyOf x = s.keyOf x := rfl
  rw [this]
  unfold updSeq
  by_cases e : k = s.keyOf c
  · rw [if_pos e, List.mem_cons, List.Nodup.mem_erase_iff (h.lists.bal _).nodup, ← e, h.mem]
    by_cases ex : x = c
    · subst ex; simp [hc, e]
    · simp [ex]
  · rw [if_neg e, h.mem]

theorem own_hotLine {N : Nat} {s : Cache} {q : Key → List Nat} (h : Own N s q) (c : Nat)
    (hc : c < N) : Own N (s.hotLine c)
      (if (s.m c).hot then q else updSeq q (s.keyOf c) (c :: (q (s.keyOf c)).erase c)) := by
  unfold Cache.hotLine
  by_cases hh : (s.m c).hot = true
  · rw [if_pos hh, if_pos hh]; exact h
  · rw [if_neg hh, if_neg hh]
    have hcm : c ∈ q (s.keyOf c) := (h.mem _ _).2 ⟨hc, rfl⟩
    obtain ⟨k, hk⟩ := List.getElem?_of_mem hcm
    have r := h.lists.bal (s.keyOf c)
    have hkl : k < (q (s.keyOf c)).length := (List.getElem?_eq_some_iff.1 hk).1
    have hn := r.node k c hk
    have hb : (((s.m c).next == none && (s.lists (s.keyOf c)).tail != some c) ||
        ((s.m c).prev == none && (s.lists (s.keyOf c)).head != some c)) = false := by
      rw [hn, r.tail, r.head]
      simp only [Bool.or_eq_false_iff, Bool.and_eq_false_iff]
      constructor
      · by_cases e : k + 1 = (q (s.keyOf c)).length
        · right
          have : (q (s.keyOf c)).length - 1 = k := by omega
          rw [this, hk]; simp
        · left
          rw [List.getElem?_eq_getElem (by omega)]; rfl
      · by_cases e : k = 0
        · right; subst e; rw [hk]; simp
        · left
          rw [if_neg e, List.getElem?_eq_getElem (by omega)]; rfl
    simp only [hb]
    have : ({ s with bug := s.bug || false } : Cache) = s := by simp
    rw [this]
    exact own_touch h c hc

theorem own_becomeClean {N : Nat} {s : Cache} {q : Key → List Nat} (h : Own N s q) (c : Nat)
    (hc : c < N) (hd : s.dirty c = true) (hp : s.part c ≠ freeId) :
    Own N (s.becomeClean c) (moveSeq q c (s.keyOf c) ((s.becomeClean c).keyOf c)) := by
  have hkey : (s.becomeClean c).keyOf c = getKey (s.part c) (c % numLru) true := by
    simp [Cache.becomeClean, Cache.keyOf, Cache.move, Cache.on]
  have hkey0 : s.keyOf c = getKey (s.part c) (c % numLru) false := by
    simp [Cache.keyOf, hd]
  have hcm : c ∈ q (s.keyOf c) := (h.mem _ _).2 ⟨hc, rfl⟩
  refine ⟨?_, ?_, ?_⟩
  · rw [hkey, hkey0]
    rw [hkey0] at hcm
    exact lists_move (s := { s with dirty := fun x => if x = c then false else s.dirty x })
      (lists_congr h.lists rfl rfl rfl) _ _ c hcm
  · intro k x
    rw [mem_moveSeq (h.lists.bal _).nodup hcm h.lists.disj]
    by_cases e : x = c
    · rw [if_pos e]; subst e; simp [hc]
    · rw [if_neg e, h.mem]
      have : (s.becomeClean c).keyOf x = s.keyOf x := by
        simp [Cache.becomeClean, Cache.keyOf, Cache.move, Cache.on, e]
      rw [this]
  · exact h.size

theorem own_becomeDirty {N : Nat} {s : Cache} {q : Key → List Nat} (h : Own N s q) (c : Nat)
    (hc : c < N) (hd : s.dirty c = false) :
    Own N (s.becomeDirty c) (moveSeq q c (s.keyOf c) ((s.becomeDirty c).keyOf c)) := by
  have hkey : (s.becomeDirty c).keyOf c = getKey (s.part c) (c % numLru) false := by
    simp [Cache.becomeDirty, Cache.keyOf, Cache.move, Cache.on]
  have hkey0 : s.keyOf c = getKey (s.part c) (c % numLru) true := by
    simp [Cache.keyOf, hd]
  have hcm : c ∈ q (s.keyOf c) := (h.mem _ _).2 ⟨hc, rfl⟩
  refine ⟨?_, ?_, ?_⟩
  · rw [hkey, hkey0]
    rw [hkey0] at hcm
    exact lists_move (s := { s with dirty := fun x => if x = c then true else s.dirty x })
      (lists_congr h.lists rfl rfl rfl) _ _ c hcm
  · intro k x
    rw [mem_moveSeq (h.lists.bal _).nodup hcm h.lists.disj]
    by_cases e : x = c
    · rw [if_pos e]; subst e; simp [hc]
    · rw [if_neg e, h.mem]
      have : (s.becomeDirty c).keyOf x = s.keyOf x := by
        simp [Cache.becomeDirty, Cache.keyOf, Cache.move, Cache.on, e]
      rw [this]
  · exact h.size

theorem own_forgetDirty {N : Nat} {s : Cache} {q : Key → List Nat} (h : Own N s q) (c : Nat)
    (hp : s.part c = freeId) : Own N (s.forgetDirty c) q := by
  refine ⟨lists_congr h.lists rfl rfl rfl, ?_, h.size⟩
  intro k x
  rw [h.mem]
  have : (s.forgetDirty c).keyOf x = s.keyOf x := by
    unfold Cache.forgetDirty Cache.keyOf getKey
    by_cases e : x = c
    · subst e; simp [hp]
    · simp [e]
  rw [this]

/-- Lines placed so far. -/
structure Placed (done : List Nat) (s : Cache) (q : Key → List Nat) : Prop where
  lists : Lists s q
  mem : ∀ k c, c ∈ q k ↔ c ∈ done ∧ k = s.keyOf c

theorem placed_fresh (m : Nat → Meta) : Placed [] (Cache.fresh m) (fun _ => []) := by
  refine ⟨⟨?_, fun k => rfl, by simp, rfl⟩, by simp⟩
  intro k
  have := rep_init m (k.part != freeId)
  unfold Bal Cache.fresh
  simpa [initList] using this

theorem placed_place {done : List Nat} {s : Cache} {q : Key → List Nat} (h : Placed done s q)
    (c : Nat) (to : Option Nat) (hc : c ∉ done) (hto : ∀ p, to = some p → p ≠ freeId) :
    Placed (c :: done) (s.place c to)
      (updSeq q ((s.place c to).keyOf c) (c :: q ((s.place c to).keyOf c))) := by
  have hcq : ∀ k, c ∉ q k := fun k e => hc ((h.mem k c).1 e).1
  have memgoal : ∀ t : Cache, (∀ x, x ≠ c → t.keyOf x = s.keyOf x) → ∀ k x,
      x ∈ updSeq q (t.keyOf c) (c :: q (t.keyOf c)) k ↔ x ∈ c :: done ∧ k = t.keyOf x := by
    intro t ht k x
    unfold updSeq
    by_cases e : x = c
    · subst e
      by_cases ek : k = t.keyOf x
      · simp [ek]
      · simp [ek, hcq k]
    · by_cases ek : k = t.keyOf c
      · rw [if_pos ek, List.mem_cons, ← ek, h.mem, ht x e]; simp [e]
      · rw [if_neg ek, h.mem, ht x e]; simp [e]
  cases to with
  | none =>
    have hkey : (s.place c none).keyOf c = getKey freeId (c % numLru) true := by
      simp [Cache.place, Cache.keyOf, Cache.on, getKey]
    refine ⟨?_, memgoal _ ?_⟩
    · rw [hkey]
      exact lists_add_free (s := { s with part := fun x => if x = c then freeId else s.part x
                                          dirty := fun x => if x = c then false else s.dirty x })
        (lists_congr h.lists rfl rfl rfl) _ c rfl hcq
    · intro x hx
      simp [Cache.place, Cache.keyOf, Cache.on, hx]
  | some p =>
    have hkey : (s.place c (some p)).keyOf c = getKey p (c % numLru) false := by
      simp [Cache.place, Cache.keyOf, Cache.on, getKey]
    refine ⟨?_, memgoal _ ?_⟩
    · rw [hkey]
      have hl : Lists { s with m := setM s.m c ⟨none, none, false⟩
                               part := fun x => if x = c then p else s.part x
                               dirty := fun x => if x = c then true else s.dirty x } q := by
        refine ⟨fun k => bal_frame (h.lists.bal k) (fun x hx => setM_ne (fun e => hcq k (by
          rw [← e]; exact hx))), h.lists.track, h.lists.disj, h.lists.bug⟩
      have hk2 : ({ s with m := setM s.m c ⟨none, none, false⟩
                           part := fun x => if x = c then p else s.part x
                           dirty := fun x => if x = c then true else s.dirty x } : Cache).keyOf c
          = getKey p (c % numLru) false := by simp [Cache.keyOf]
      have := lists_add hl (getKey p (c % numLru) false) c hcq
      unfold Cache.place
      simp only
      rw [hk2]
      exact this
    · intro x hx
      simp [Cache.place, Cache.keyOf, Cache.on, hx]

theorem placed_fold {order : List Nat} {to : Nat → Option Nat} (hn : order.Nodup)
    (hto : ∀ c p, to c = some p → p ≠ freeId) (done : List Nat) (s : Cache) (q : Key → List Nat)
    (h : Placed done s q) (hd : ∀ c ∈ order, c ∉ done)
    (hp : ∀ c ∈ done, s.part c = (to c).getD freeId) :
    ∃ q', Placed (order.reverse ++ done) (order.foldl (fun s c => s.place c (to c)) s) q' ∧
      (∀ c ∈ order.reverse ++ done,
        (order.foldl (fun s c => s.place c (to c)) s).part c = (to c).getD freeId) := by
  induction order generalizing done s q with
  | nil => exact ⟨q, by simpa using h, by simpa using hp⟩
  | cons a as ih =>
    have hna := List.nodup_cons.1 hn
    have h1 := placed_place h a (to a) (hd a (by simp)) (hto a)
    have hpart : ∀ x, (s.place a (to a)).part x = if x = a then (to a).getD freeId else s.part x := by
      intro x
      cases h : to a <;> simp [Cache.place, Cache.on]
    obtain ⟨q', h2, h3⟩ := ih hna.2 (a :: done) _ _ h1 (by
      intro c hc e
      rcases List.mem_cons.1 e with e | e
      · exact hna.1 (by rw [← e]; exact hc)
      · exact hd c (by simp [hc]) e) (by
      intro c hc
      rw [hpart]
      by_cases e : c = a
      · rw [if_pos e, e]
      · rw [if_neg e]
        rcases List.mem_cons.1 hc with e' | e'
        · exact absurd e' e
        · exact hp c e')
    refine ⟨q', by simpa using h2, by simpa using h3⟩

end Verif.Lru
