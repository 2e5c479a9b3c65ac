import Verif.Model.Parallelize

/-!
C22. Specification: every shard's handler runs exactly once before the single finish call; the
code passed to finish is zero iff all handlers returned zero; the item sets of the shards
partition `[0, entries)`.
-/

namespace Verif.Parallelize

/-- Shard `i`'s handler has run. -/
def Shard.ran : Shard → Bool
  | .idle | .queued => false
  | _ => true

/-- Shard's code was recorded. -/
def Shard.recorded : Shard → Bool
  | .noted | .done => true
  | _ => false

structure Inv (n : Nat) (s : State) : Prop where
  len : s.shards.length = n
  next : s.next ≤ n
  rem : s.remaining = (s.shards.countP Shard.open : Int) + (if s.runnerDone then 0 else 1)
  fin : s.finished.length = if s.shards.countP Shard.open = 0 ∧ s.runnerDone = true then 1 else 0
  runner : s.runnerDone = true → s.next = n
  idle : ∀ i, s.next ≤ i → i < n → s.shards[i]? = some .idle
  nodup : s.handled.Nodup
  ran : ∀ i, i ∈ s.handled ↔ ∃ x, s.shards[i]? = some x ∧ x.ran = true
  err : s.error = 0 ↔ ∀ e ∈ s.codes, e = 0
  codes : s.codes.length = s.shards.countP Shard.recorded
  finErr : ∀ e ∈ s.finished, e = s.error

theorem inv_init (n : Nat) : Inv n (init n) := by
  refine ⟨by simp [init], by simp [init], ?_, ?_, by simp [init], ?_, by simp [init], ?_,
    by simp [init], ?_, by simp [init]⟩
  · simp [init, List.countP_replicate, Shard.open]
  · simp [init]
  · intro i _ hi; simp [init, hi]
  · intro i
    simp only [init, List.not_mem_nil, false_iff]
    rintro ⟨x, hx, hr⟩
    rw [List.getElem?_replicate] at hx
    split at hx
    · cases hx; simp [Shard.ran] at hr
    · cases hx
  · simp [init, List.countP_replicate, Shard.recorded]

theorem get_set (l : List Shard) (i j : Nat) (a x : Shard) (hi : l[i]? = some x) :
    (l.set i a)[j]? = if i = j then some a else l[j]? := by
  rw [List.getElem?_set]
  split
  · rename_i h; subst h
    have : i < l.length := by
      rw [List.getElem?_eq_some_iff] at hi; exact hi.1
    simp [this]
  · rfl

theorem inv_step (n : Nat) (s t : State) (h : Inv n s) (hst : Step s t) : Inv n t := by
  cases hst with
  | push hlt hr =>
    have hidle := h.idle s.next (Nat.le_refl _) (by have := h.len; omega)
    have hc := countP_set Shard.open s.shards s.next .queued _ hidle
    have hc2 := countP_set Shard.recorded s.shards s.next .queued _ hidle
    simp only [Shard.open, Shard.recorded, if_true, Bool.false_eq_true, if_false] at hc hc2
    have hlen := h.len
    refine ⟨by simp [hlen], by simp only; omega, ?_, ?_, ?_, ?_, h.nodup, ?_, h.err, ?_, h.finErr⟩
    · simp only [h.rem, hr]; omega
    · have := h.fin
      simp only [hr] at this ⊢
      simpa using this
    · simp [hr]
    · intro i h1 h2
      simp only at h1 ⊢
      rw [get_set _ _ _ _ _ hidle, if_neg (by omega)]
      exact h.idle i (by omega) h2
    · intro i
      rw [h.ran i]
      simp only [get_set _ _ _ _ _ hidle]
      by_cases hi : s.next = i
      · subst hi; simp [hidle, Shard.ran]
      · simp [hi]
    · simp only [h.codes]; omega
  | runnerEnd hn hr =>
    have hrem := h.rem
    have hfin := h.fin
    have hlen := h.len
    simp only [hr, Bool.false_eq_true, and_false, if_false] at hrem hfin
    refine ⟨h.len, h.next, ?_, ?_, ?_, h.idle, h.nodup, h.ran, h.err, h.codes, ?_⟩
    · simp only [finish, if_true]; omega
    · simp only [finish, and_true]
      by_cases hz : s.remaining - 1 = 0
      · rw [if_pos hz, if_pos (by omega)]; simp [hfin]
      · rw [if_neg hz, if_neg (by omega)]; exact hfin
    · intro _; simp only [finish]; omega
    · intro e he
      simp only [finish] at he ⊢
      split at he
      · rcases List.mem_append.1 he with he | he
        · exact h.finErr e he
        · simpa using he
      · exact h.finErr e he
  | handle i e hx =>
    have hc := countP_set Shard.open s.shards i (.handled e) _ hx
    have hc2 := countP_set Shard.recorded s.shards i (.handled e) _ hx
    simp only [Shard.open, Shard.recorded, if_true, Bool.false_eq_true, if_false] at hc hc2
    have hlen := h.len
    have hni : ¬ i ∈ s.handled := by
      rw [h.ran]; rintro ⟨x, h1, h2⟩; rw [hx] at h1; cases h1; simp [Shard.ran] at h2
    refine ⟨by simp [hlen], h.next, ?_, ?_, h.runner, ?_, ?_, ?_, h.err, ?_, h.finErr⟩
    · simp only [h.rem]; omega
    · have := h.fin
      simp only
      rw [show (s.shards.set i (.handled e)).countP Shard.open = s.shards.countP Shard.open by omega]
      exact this
    · intro j h1 h2
      have := h.idle j h1 h2
      simp only
      rw [get_set _ _ _ _ _ hx]
      split
      · rename_i hij; subst hij; rw [hx] at this; cases this
      · exact this
    · simp only
      rw [List.nodup_append]
      refine ⟨h.nodup, by simp, ?_⟩
      intro a ha b hb
      simp at hb; subst hb
      rintro rfl; exact hni ha
    · intro j
      simp only [List.mem_append, List.mem_singleton, h.ran j, get_set _ _ _ _ _ hx]
      by_cases hij : i = j
      · subst hij; simp [Shard.ran]
      · simp [hij, Ne.symm hij]
    · simp only [h.codes]; omega
  | note i e hx =>
    have hc := countP_set Shard.open s.shards i .noted _ hx
    have hc2 := countP_set Shard.recorded s.shards i .noted _ hx
    simp only [Shard.open, Shard.recorded, if_true, Bool.false_eq_true, if_false] at hc hc2
    have hlen := h.len
    have hpos := countP_pos_of_get Shard.open s.shards i _ hx rfl
    have hfin := h.fin
    rw [if_neg (by omega)] at hfin
    have hfin0 : s.finished = [] := List.length_eq_zero_iff.1 hfin
    refine ⟨by simp [hlen], h.next, ?_, ?_, h.runner, ?_, h.nodup, ?_, ?_, ?_, ?_⟩
    · simp only [h.rem]; omega
    · simp only
      rw [if_neg (by omega)]; exact hfin
    · intro j h1 h2
      have := h.idle j h1 h2
      simp only
      rw [get_set _ _ _ _ _ hx]
      split
      · rename_i hij; subst hij; rw [hx] at this; cases this
      · exact this
    · intro j
      rw [h.ran j]
      simp only [get_set _ _ _ _ _ hx]
      by_cases hij : i = j
      · subst hij; simp [hx, Shard.ran]
      · simp [hij]
    · have herr := h.err
      simp only [List.mem_append, List.mem_singleton]
      by_cases hz : s.error = 0
      · simp only [hz, if_true]
        have hall := herr.1 hz
        constructor
        · intro he x hx
          rcases hx with hx | hx
          · exact hall x hx
          · rw [hx]; exact he
        · intro hx; exact hx e (Or.inr rfl)
      · simp only [hz, if_false, false_iff]
        intro hall
        exact hz (herr.2 fun x hx => hall x (Or.inl hx))
    · simp only [List.length_append, List.length_singleton, h.codes]; omega
    · simp [hfin0]
  | done i hx =>
    have hc := countP_set Shard.open s.shards i .done _ hx
    have hc2 := countP_set Shard.recorded s.shards i .done _ hx
    simp only [Shard.open, Shard.recorded, if_true, Bool.false_eq_true, if_false] at hc hc2
    have hlen := h.len
    have hpos := countP_pos_of_get Shard.open s.shards i _ hx rfl
    have hfin := h.fin
    rw [if_neg (by omega)] at hfin
    have hrem := h.rem
    refine ⟨by simp [hlen], h.next, ?_, ?_, h.runner, ?_, h.nodup, ?_, h.err, ?_, ?_⟩
    · show s.remaining - 1 = ((s.shards.set i .done).countP Shard.open : Int) +
        (if s.runnerDone = true then 0 else 1)
      omega
    · show (if s.remaining - 1 = 0 then s.finished ++ [s.error] else s.finished).length =
        if (s.shards.set i .done).countP Shard.open = 0 ∧ s.runnerDone = true then 1 else 0
      by_cases hrd : s.runnerDone = true
      rotate_left
      · rw [if_neg hrd] at hrem
        rw [if_neg (by omega), if_neg (fun h => hrd h.2)]; exact hfin
      · rw [if_pos hrd] at hrem
        by_cases hz : s.remaining - 1 = 0
        · rw [if_pos hz, if_pos ⟨by omega, hrd⟩]; simp [hfin]
        · rw [if_neg hz, if_neg (by omega)]; exact hfin
    · intro j h1 h2
      have := h.idle j h1 h2
      simp only [finish]
      rw [get_set _ _ _ _ _ hx]
      split
      · rename_i hij; subst hij; rw [hx] at this; cases this
      · exact this
    · intro j
      simp only [finish]
      rw [h.ran j]
      simp only [get_set _ _ _ _ _ hx]
      by_cases hij : i = j
      · subst hij; simp [hx, Shard.ran]
      · simp [hij]
    · simp only [finish, h.codes]; omega
    · intro e he
      simp only [finish] at he ⊢
      split at he
      · rcases List.mem_append.1 he with he | he
        · exact h.finErr e he
        · simpa using he
      · exact h.finErr e he

theorem inv_reach (n : Nat) (s : State) (h : Reach (· = init n) Step s) : Inv n s :=
  Reach.inv (fun _ hs => hs ▸ inv_init n) (fun s t => inv_step n s t) s h

/-- C22: finish is called at most once; when it has been called, every shard's handler has run
exactly once and every shard is done; its argument is zero iff every handler returned zero. -/
theorem finish_once (n : Nat) (s : State) (h : Reach (· = init n) Step s) :
    s.finished.length ≤ 1 ∧
    (s.finished.length = 1 ↔ s.runnerDone = true ∧ ∀ x ∈ s.shards, x = .done) ∧
    (s.finished.length = 1 → s.handled.Nodup ∧ (∀ i, i ∈ s.handled ↔ i < n) ∧
      s.codes.length = n) ∧
    (∀ e ∈ s.finished, e = 0 ↔ ∀ c ∈ s.codes, c = 0) := by
  have hi := inv_reach n s h
  have hdone : s.shards.countP Shard.open = 0 ↔ ∀ x ∈ s.shards, x = .done := by
    rw [List.countP_eq_zero]
    constructor
    · intro h x hx
      have := h x hx
      cases x <;> simp [Shard.open] at this ⊢
    · intro h x hx; rw [h x hx]; simp [Shard.open]
  have hfin := hi.fin
  refine ⟨by split at hfin <;> omega, ?_, ?_, ?_⟩
  · rw [← hdone]
    constructor
    · intro h1
      split at hfin
      · rename_i hc; exact ⟨hc.2, hc.1⟩
      · omega
    · rintro ⟨h1, h2⟩; rw [if_pos ⟨h2, h1⟩] at hfin; exact hfin
  · intro h1
    have hall : ∀ x ∈ s.shards, x = .done := by
      rw [← hdone]
      split at hfin
      · rename_i hc; exact hc.1
      · omega
    refine ⟨hi.nodup, ?_, ?_⟩
    · intro i
      rw [hi.ran i]
      constructor
      · rintro ⟨x, hx, _⟩
        have := (List.getElem?_eq_some_iff.1 hx).1
        rw [hi.len] at this; exact this
      · intro hlt
        have hl : i < s.shards.length := by rw [hi.len]; exact hlt
        exact ⟨s.shards[i], by simp [hl], by rw [hall _ (List.getElem_mem hl)]; rfl⟩
    · rw [hi.codes, ← hi.len]
      rw [List.countP_eq_length]
      intro x hx; rw [hall x hx]; rfl
  · intro e he
    rw [hi.finErr e he]; exact hi.err

/-- Specification: the shards' item lists partition the items `[0, entries)`. -/
def Partition (entries shards : Nat) (items : Nat → List Nat) : Prop :=
  (∀ id, id < shards → (items id).Nodup) ∧
  (∀ x, x < entries → ∃ id, id < shards ∧ x ∈ items id ∧ ∀ id', id' < shards → x ∈ items id' → id' = id) ∧
  (∀ id x, id < shards → x ∈ items id → x < entries)

/-- Items of one shard of a strided handler. -/
theorem stride_mem (entries shards : Nat) (hs : 0 < shards) : ∀ id x, id < shards →
    (x ∈ strideItems entries shards id ↔ x < entries ∧ x % shards = id) := by
  intro id x hid
  unfold strideItems
  rw [if_neg (by omega)]
  split
  · rename_i hlt
    simp only [List.mem_map, List.mem_range]
    constructor
    · rintro ⟨k, hk, rfl⟩
      rw [Nat.lt_div_iff_mul_lt hs] at hk
      refine ⟨?_, by rw [Nat.add_mul_mod_self_right, Nat.mod_eq_of_lt hid]⟩
      have : k * shards = shards * k := Nat.mul_comm _ _
      omega
    · rintro ⟨h1, h2⟩
      have hd := Nat.div_add_mod x shards
      refine ⟨x / shards, ?_, by rw [Nat.mul_comm]; omega⟩
      rw [Nat.lt_div_iff_mul_lt hs]
      have : x / shards * shards = shards * (x / shards) := Nat.mul_comm _ _
      omega
  · rename_i hge
    simp only [List.not_mem_nil, false_iff]
    rintro ⟨h1, h2⟩
    have := Nat.mod_le x shards
    omega

/-- C22, strided handlers. -/
theorem stride_partition (entries shards : Nat) (hs : 0 < shards) :
    Partition entries shards (strideItems entries shards) := by
  have hmem := stride_mem entries shards hs
  refine ⟨?_, ?_, ?_⟩
  · intro id hid
    unfold strideItems
    rw [if_neg (by omega)]
    split
    · rw [List.nodup_iff_pairwise_ne, List.pairwise_map]
      apply List.Pairwise.imp _ (List.nodup_iff_pairwise_ne.1 List.nodup_range)
      intro a b hab h
      exact hab (Nat.eq_of_mul_eq_mul_right hs (by omega))
    · exact List.nodup_nil
  · intro x hx
    refine ⟨x % shards, Nat.mod_lt _ hs, (hmem _ _ (Nat.mod_lt _ hs)).2 ⟨hx, rfl⟩, ?_⟩
    intro id' hid' hm
    exact ((hmem _ _ hid').1 hm).2.symm
  · intro id x hid hm
    exact ((hmem _ _ hid).1 hm).1

/-- C22, handlers taking contiguous portions. -/
theorem portion_partition (entries shards : Nat) (hs : 0 < shards) :
    Partition entries shards (portionItems entries shards) := by
  have hcov : entries ≤ (entries + shards - 1) / shards * shards := by
    have := Nat.div_add_mod (entries + shards - 1) shards
    have h2 := Nat.mod_lt (entries + shards - 1) hs
    rw [Nat.mul_comm] at this
    omega
  generalize hp : (entries + shards - 1) / shards = portion at hcov
  have hmem : ∀ id x, x ∈ portionItems entries shards id ↔
      portion * id ≤ x ∧ x < portion * (id + 1) ∧ x < entries := by
    intro id x
    simp only [portionItems, hp, List.mem_range'_1]
    omega
  refine ⟨fun id _ => by simp only [portionItems]; exact List.nodup_range', ?_, ?_⟩
  · intro x hx
    have hpos : 0 < portion := by
      rcases Nat.eq_zero_or_pos portion with h | h
      · subst h; omega
      · exact h
    have hd := Nat.div_add_mod x portion
    have hm := Nat.mod_lt x hpos
    refine ⟨x / portion, ?_, (hmem _ _).2 ⟨by omega, by rw [Nat.mul_add]; omega, hx⟩, ?_⟩
    · rw [Nat.div_lt_iff_lt_mul hpos, Nat.mul_comm]; omega
    · intro id' _ hm'
      obtain ⟨h1, h2, _⟩ := (hmem _ _).1 hm'
      symm
      apply Nat.div_eq_of_lt_le
      · rw [Nat.mul_comm]; exact h1
      · rw [Nat.mul_comm]; exact h2
  · intro id x _ hm
    exact ((hmem _ _).1 hm).2.2

/-! Non-vacuity: two shards, one failing; portions of 10 items over 3 shards. -/
example : ∃ s, Reach (· = init 1) Step s ∧ s.finished = [-3] ∧ s.handled = [0] := by
  refine ⟨⟨0, -3, [.done], 1, true, [0], [-3], [-3]⟩, ?_, rfl, rfl⟩
  refine Reach.step (s := ⟨1, -3, [.done], 1, false, [0], [-3], []⟩) ?_ (Step.runnerEnd _ rfl rfl)
  refine Reach.step (s := ⟨2, -3, [.noted], 1, false, [0], [-3], []⟩) ?_ (Step.done _ 0 rfl)
  refine Reach.step (s := ⟨2, 0, [.handled (-3)], 1, false, [0], [], []⟩) ?_ (Step.note _ 0 (-3) rfl)
  refine Reach.step (s := ⟨2, 0, [.queued], 1, false, [], [], []⟩) ?_ (Step.handle _ 0 (-3) rfl)
  exact Reach.step (s := init 1) (Reach.init rfl) (Step.push _ (by simp [init]) rfl)

example : (List.range 3).map (portionItems 10 3) = [[0,1,2,3],[4,5,6,7],[8,9]] := by decide
example : (List.range 3).map (strideItems 10 3) = [[0,3,6,9],[1,4,7],[2,5,8]] := by decide

end Verif.Parallelize
