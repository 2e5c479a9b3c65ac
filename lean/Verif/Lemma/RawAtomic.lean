import Verif.Model.RawAtomic
import Verif.Lemma.Common

/-! Lemmas for `Verif.Props.RawAtomic`. -/

namespace Verif.RawAtomic

/-- Byte `b` of the device is in the range of a command. -/
def cov (b : Nat) (c : Cmd) : Bool := decide (c.addr ≤ b) && decide (b < c.addr + c.len)

/-- Byte `b` is in cache line `x`. -/
def page (c : Ctx) (b x : Nat) : Bool := decide (c.base x ≤ b) && decide (b < c.base x + c.S * 512)

/-- Byte `b` is in a sector that an entry marks as invalid. -/
def marks (S off b : Nat) (e : Ent) : Bool :=
  e.flush && !e.miss && decide (off + (e.coll * S + e.start) * 512 ≤ b) &&
    decide (b < off + (e.coll * S + e.stop + 1) * 512)

@[simp] theorem cmd_addr (c : Ctx) (a l : Nat) : (c.cmd a l).addr = a := by unfold Ctx.cmd; split <;> rfl
@[simp] theorem cmd_len (c : Ctx) (a l : Nat) : (c.cmd a l).len = l := by unfold Ctx.cmd; split <;> rfl
@[simp] theorem cmd_disc (c : Ctx) (a l : Nat) : (c.cmd a l).disc = c.dz := by
  unfold Ctx.cmd; split <;> simp_all

theorem base_succ (c : Ctx) (x : Nat) : c.base (x + 1) = c.base x + c.S * 512 := by
  unfold Ctx.base; rw [Nat.add_mul]; omega

theorem base_mono (c : Ctx) {x y : Nat} (h : x ≤ y) : c.base x ≤ c.base y := by
  unfold Ctx.base; have := Nat.mul_le_mul_right (c.S * 512) h; omega

theorem wrap_eq {cur y : Nat} (h : cur ≤ y) (he : (cur + 1) % W = y) : y = cur + 1 := by
  unfold W at he; omega

theorem go_count (c : Ctx) (b : Nat) (r : List Nat) : ∀ start len cur, (cur :: r).Pairwise (· ≤ ·) →
    start + len = c.base cur + c.S * 512 → len + r.length * (c.S * 512) < W →
    (c.go start len cur r).countP (cov b) =
      (if start ≤ b ∧ b < start + len then 1 else 0) + r.countP (page c b) := by
  induction r with
  | nil => intro start len cur _ _ _; simp [Ctx.go, List.countP_cons, cov]
  | cons y r ih =>
    intro start len cur hs hl hw
    have hcy : cur ≤ y := (List.pairwise_cons.1 hs).1 y (List.mem_cons_self ..)
    have hs' : (y :: r).Pairwise (· ≤ ·) := (List.pairwise_cons.1 hs).2
    simp only [List.length_cons, Nat.add_mul, Nat.one_mul] at hw
    by_cases he : (cur + 1) % W = y
    · have hy := wrap_eq hcy he
      have hm : (len + c.S * 512) % W = len + c.S * 512 := Nat.mod_eq_of_lt (by omega)
      have hb := base_succ c cur
      rw [← hy] at hb
      simp only [Ctx.go, he, if_true, hm]
      rw [ih start (len + c.S * 512) y hs' (by omega) (by omega)]
      simp only [List.countP_cons, page, Bool.and_eq_true, decide_eq_true_eq]
      repeat' split
      all_goals omega
    · simp only [Ctx.go, he, if_false, List.countP_cons]
      rw [ih (c.base y) (c.S * 512) y hs' rfl (by omega)]
      simp only [cov, cmd_addr, cmd_len, page, Bool.and_eq_true, decide_eq_true_eq]
      omega

theorem runs_count (c : Ctx) (b : Nat) (t : List Nat) (hs : t.Pairwise (· ≤ ·))
    (hw : t.length * (c.S * 512) < W) : (c.runs t).countP (cov b) = t.countP (page c b) := by
  cases t with
  | nil => rfl
  | cons x r =>
    simp only [List.length_cons, Nat.add_mul, Nat.one_mul] at hw
    simp only [Ctx.runs]
    rw [go_count c b r _ _ x hs rfl (by omega)]
    simp only [List.countP_cons, page, Bool.and_eq_true, decide_eq_true_eq]
    omega

theorem go_apart (c : Ctx) (hS : 0 < c.S) (r : List Nat) : ∀ start len cur, (cur :: r).Pairwise (· < ·) → (∀ x ∈ r, x < W) →
    start + len = c.base cur + c.S * 512 → start ≤ c.base cur → len + r.length * (c.S * 512) < W →
    (∀ x ∈ c.go start len cur r, start ≤ x.addr) ∧
      (c.go start len cur r).Pairwise (fun x y => x.addr + x.len < y.addr) := by
  induction r with
  | nil => intro start len cur _ _ _ _ _; simp [Ctx.go]
  | cons y r ih =>
    intro start len cur hs hx hl hb hw
    have hcy : cur < y := (List.pairwise_cons.1 hs).1 y (List.mem_cons_self ..)
    have hs' : (y :: r).Pairwise (· < ·) := (List.pairwise_cons.1 hs).2
    simp only [List.length_cons, Nat.add_mul, Nat.one_mul] at hw
    by_cases he : (cur + 1) % W = y
    · have hy := wrap_eq (Nat.le_of_lt hcy) he
      have hm : (len + c.S * 512) % W = len + c.S * 512 := Nat.mod_eq_of_lt (by omega)
      have hbs := base_succ c cur
      rw [← hy] at hbs
      simp only [Ctx.go, he, if_true, hm]
      exact ih start (len + c.S * 512) y hs' (fun x h => hx x (List.mem_cons_of_mem _ h)) (by omega) (by omega) (by omega)
    · have hyw := hx y (List.mem_cons_self ..)
      have h2 : cur + 2 ≤ y := by unfold W at he hyw; omega
      have hb2 := base_mono c h2
      have hb0 := base_succ c cur
      have hb1 : c.base (cur + 2) = _ := base_succ c (cur + 1)
      obtain ⟨h3, h4⟩ := ih (c.base y) (c.S * 512) y hs' (fun x h => hx x (List.mem_cons_of_mem _ h)) rfl
        (Nat.le_refl _) (by omega)
      simp only [Ctx.go, he, if_false, List.mem_cons, List.pairwise_cons, cmd_addr, cmd_len]
      refine ⟨?_, ?_, h4⟩
      · rintro x (rfl | h)
        · simp
        · have := h3 x h; omega
      · intro x h; have := h3 x h; omega

theorem runs_apart (c : Ctx) (hS : 0 < c.S) (t : List Nat) (hs : t.Pairwise (· < ·)) (hx : ∀ x ∈ t, x < W)
    (hw : t.length * (c.S * 512) < W) : (c.runs t).Pairwise (fun x y => x.addr + x.len < y.addr) := by
  cases t with
  | nil => exact List.Pairwise.nil
  | cons x r =>
    simp only [List.length_cons, Nat.add_mul, Nat.one_mul] at hw
    exact (go_apart c hS r _ _ x hs (fun y h => hx y (List.mem_cons_of_mem _ h)) rfl (Nat.le_refl _) (by omega)).2

theorem go_disc (c : Ctx) (r : List Nat) : ∀ start len cur, ∀ x ∈ c.go start len cur r, x.disc = c.dz := by
  induction r with
  | nil => intro start len cur x h; simp [Ctx.go] at h; simp [h]
  | cons y r ih =>
    intro start len cur x h
    simp only [Ctx.go] at h
    split at h
    · exact ih _ _ _ x h
    · rcases List.mem_cons.1 h with rfl | h
      · simp
      · exact ih _ _ _ x h

theorem runs_disc (c : Ctx) (t : List Nat) : ∀ x ∈ c.runs t, x.disc = c.dz := by
  cases t with
  | nil => intro x h; cases h
  | cons y r => exact go_disc c r _ _ _

/-- The marks of lines `i`, `i + 1`, … of a request of `n` lines cover a contiguous range. -/
def ShapeFrom (S n : Nat) : Nat → List Ent → Prop
  | _, [] => True
  | i, e :: r => (e.flush = true → e.miss = false →
      e.start ≤ e.stop ∧ e.stop < S ∧ (i ≠ 0 → e.start = 0) ∧ (i + 1 ≠ n → e.stop = S - 1)) ∧ ShapeFrom S n (i + 1) r

theorem shapeFrom_of (S n : Nat) (m : List Ent) : ∀ i, (∀ j e, m[j]? = some e → e.flush = true → e.miss = false →
      e.start ≤ e.stop ∧ e.stop < S ∧ (i + j ≠ 0 → e.start = 0) ∧ (i + j + 1 ≠ n → e.stop = S - 1)) →
    ShapeFrom S n i m := by
  induction m with
  | nil => intro i _; trivial
  | cons e r ih =>
    intro i h
    refine ⟨fun h1 h2 => h 0 e rfl h1 h2, ih (i + 1) ?_⟩
    intro j e' hj h1 h2
    have := h (j + 1) e' (by simpa using hj) h1 h2
    rw [show i + 1 + j = i + (j + 1) by omega]
    exact this

theorem sec_cov (c : Ctx) (b : Nat) (e : Ent) (h1 : e.flush = true) (h2 : e.miss = false) (h3 : e.start ≤ e.stop) :
    cov b (c.sec e) = marks c.S c.off b e := by
  unfold cov Ctx.sec marks
  simp only [cmd_addr, cmd_len, h1, h2, Ctx.base, Nat.add_mul, Nat.mul_assoc]
  rw [Bool.eq_iff_iff]
  simp only [Bool.and_eq_true, decide_eq_true_eq, Bool.not_false, true_and, and_true]
  omega

theorem page_cov (c : Ctx) (b : Nat) (e : Ent) (h1 : e.flush = true) (h2 : e.miss = false) (h3 : e.start = 0)
    (h4 : e.stop < c.S) (h5 : e.stop = c.S - 1) : page c b e.coll = marks c.S c.off b e := by
  unfold page marks
  have h6 : e.stop + 1 = c.S := by omega
  have h7 : (e.coll * c.S + e.stop + 1) * 512 = e.coll * (c.S * 512) + c.S * 512 := by
    rw [Nat.add_assoc, h6, Nat.add_mul, Nat.mul_assoc]
  have h8 : (e.coll * c.S + 0) * 512 = e.coll * (c.S * 512) := by rw [Nat.add_zero, Nat.mul_assoc]
  have h9 : c.base e.coll = e.coll * (c.S * 512) + c.off := rfl
  rw [h3, h7, h8, Bool.eq_iff_iff]
  simp only [h1, h2, Bool.and_eq_true, decide_eq_true_eq, Bool.not_false, true_and]
  rw [h9]
  generalize e.coll * (c.S * 512) = X
  omega

theorem loop_count (c : Ctx) (n b : Nat) (hn : n ≠ 1) (r : List Ent) : ∀ i, ShapeFrom c.S n i r →
    (c.loop n i r).1.countP (cov b) + (c.loop n i r).2.countP (page c b) = r.countP (marks c.S c.off b) := by
  induction r with
  | nil => intro i _; rfl
  | cons e r ih =>
    intro i hs
    obtain ⟨h0, hs⟩ := hs
    have ih := ih (i + 1) hs
    simp only [Ctx.loop, List.countP_cons]
    by_cases hf : (!e.flush || e.miss) = true
    · have : marks c.S c.off b e = false := by
        unfold marks; cases h1 : e.flush <;> cases h2 : e.miss <;> simp_all
      simp only [hf, if_true, this]; simpa using ih
    · have h1 : e.flush = true := by cases h : e.flush <;> simp_all
      have h2 : e.miss = false := by cases h : e.miss <;> simp_all
      obtain ⟨h3, h4, h5, h6⟩ := h0 h1 h2
      simp only [if_neg hf]
      by_cases ha : c.alone n i e = true
      · simp only [ha, if_true, List.countP_cons]
        rw [sec_cov c b e h1 h2 h3, ← ih]; omega
      · simp only [if_neg ha, List.countP_cons]
        have h7 : e.start = 0 ∧ e.stop = c.S - 1 := by
          unfold Ctx.alone at ha
          by_cases hi : i = 0
          · subst hi
            simp at ha
            exact ⟨ha, h6 (by omega)⟩
          · refine ⟨h5 hi, ?_⟩
            by_cases hl : i + 1 = n
            · simp [hi, hl] at ha; exact ha
            · exact h6 hl
        rw [page_cov c b e h1 h2 h7.1 h4 h7.2, ← ih]; omega

theorem loop_len (c : Ctx) (n : Nat) (r : List Ent) : ∀ i, (c.loop n i r).2.length ≤ r.length := by
  induction r with
  | nil => intro i; simp [Ctx.loop]
  | cons e r ih =>
    intro i
    have := ih (i + 1)
    simp only [Ctx.loop]
    split
    · simp; omega
    · split <;> simp <;> omega

theorem loop_disc (c : Ctx) (n : Nat) (r : List Ent) : ∀ i, ∀ x ∈ (c.loop n i r).1, x.disc = c.dz := by
  induction r with
  | nil => intro i x h; simp [Ctx.loop] at h
  | cons e r ih =>
    intro i x h
    simp only [Ctx.loop] at h
    split at h
    · exact ih _ x h
    · split at h
      · rcases List.mem_cons.1 h with rfl | h
        · simp [Ctx.sec]
        · exact ih _ x h
      · exact ih _ x h

theorem loop_sub (c : Ctx) (n : Nat) (r : List Ent) : ∀ i, ((c.loop n i r).2).Sublist (r.map (·.coll)) := by
  induction r with
  | nil => intro i; simp [Ctx.loop]
  | cons e r ih =>
    intro i
    simp only [Ctx.loop, List.map_cons]
    split
    · exact (ih _).cons _
    · split
      · exact (ih _).cons _
      · exact (ih _).cons_cons _

theorem sort_pw (l : List Nat) : l.mergeSort.Pairwise (· ≤ ·) := by
  have := List.pairwise_mergeSort (le := fun a b : Nat => decide (a ≤ b)) (by simp; omega) (by simp; omega) l
  simpa using this

theorem sort_lt (l : List Nat) (h : l.Nodup) : l.mergeSort.Pairwise (· < ·) := by
  have h1 := sort_pw l
  have h2 : l.mergeSort.Nodup := (List.mergeSort_perm l _).nodup_iff.2 h
  have := h1.and h2
  exact this.imp (fun {a b} h => Nat.lt_of_le_of_ne h.1 h.2)

/-- What `purge` makes of entry `j`. -/
def upd (addr bytes S n j : Nat) (e : Ent) : Ent :=
  if e.miss then e
  else { e with flush := true
                start := if j = 0 then addr / 512 % S else 0
                stop := if j + 1 = n then (addr + bytes - 1) / 512 % S else S - 1 }

theorem mark_inv (c : Ctx) (i a z : Nat) (e : Ent) (h : c.map[i]? = some e) : mark c i .invalid a z =
    { c with map := c.map.set i { e with flush := true, start := a, stop := z }, marked := true } := by
  unfold mark; rw [h]; simp

theorem purgeFrom_spec (addr bytes n : Nat) : ∀ i c, i + n = c.map.length →
    (purgeFrom addr bytes n i c).S = c.S ∧ (purgeFrom addr bytes n i c).off = c.off ∧
    (purgeFrom addr bytes n i c).dz = c.dz ∧ (purgeFrom addr bytes n i c).mem = c.mem ∧
    (purgeFrom addr bytes n i c).map.length = c.map.length ∧
    ((purgeFrom addr bytes n i c).marked = true ↔ c.marked = true ∨ ∃ j e, i ≤ j ∧ c.map[j]? = some e ∧ e.miss = false) ∧
    ∀ j, (purgeFrom addr bytes n i c).map[j]? =
      if i ≤ j then (c.map[j]?).map (upd addr bytes c.S c.map.length j) else c.map[j]? := by
  induction n with
  | zero =>
    intro i c h
    refine ⟨rfl, rfl, rfl, rfl, rfl, ?_, ?_⟩
    · simp only [purgeFrom]
      refine ⟨Or.inl, ?_⟩
      rintro (h1 | ⟨j, e, h1, h2, _⟩)
      · exact h1
      · have := (List.getElem?_eq_some_iff.1 h2).1; omega
    · intro j
      simp only [purgeFrom]
      split
      · rw [List.getElem?_eq_none (by omega)]; rfl
      · rfl
  | succ n ih =>
    intro i c h
    have hi : i < c.map.length := by omega
    have hg : c.map[i]? = some c.map[i] := List.getElem?_eq_getElem hi
    simp only [purgeFrom]
    rw [hg]
    by_cases hm : c.map[i].miss = true
    · simp only [hm, if_true]
      obtain ⟨h1, h2, h3, h4, h5, h6, h7⟩ := ih (i + 1) c (by omega)
      refine ⟨h1, h2, h3, h4, h5, ?_, ?_⟩
      · rw [h6]
        constructor
        · rintro (h | ⟨j, e, a, b, d⟩)
          · exact Or.inl h
          · exact Or.inr ⟨j, e, by omega, b, d⟩
        · rintro (h | ⟨j, e, a, b, d⟩)
          · exact Or.inl h
          · refine Or.inr ⟨j, e, ?_, b, d⟩
            rcases Nat.eq_or_lt_of_le a with rfl | h
            · rw [hg] at b; cases b; simp [hm] at d
            · exact h
      · intro j
        rw [h7 j]
        by_cases hj : j = i
        · subst hj
          rw [if_neg (by omega), if_pos (Nat.le_refl _), hg]
          simp [upd, hm]
        · by_cases h8 : i ≤ j
          · rw [if_pos (by omega), if_pos h8]
          · rw [if_neg (by omega), if_neg h8]
    · simp only [if_neg hm]
      rw [mark_inv c i _ _ _ hg]
      have hm' : c.map[i].miss = false := by simpa using hm
      obtain ⟨h1, h2, h3, h4, h5, h6, h7⟩ := ih (i + 1)
        { c with map := c.map.set i { c.map[i] with
                   flush := true
                   start := if i = 0 then addr / 512 % c.S else 0
                   stop := if i + 1 = c.map.length then (addr + bytes - 1) / 512 % c.S else c.S - 1 }
                 marked := true } (by simp; omega)
      refine ⟨h1, h2, h3, h4, by rw [h5]; simp, ?_, ?_⟩
      · rw [h6]
        exact ⟨fun _ => Or.inr ⟨i, _, Nat.le_refl _, hg, hm'⟩, fun _ => Or.inl rfl⟩
      · intro j
        rw [h7 j]
        simp only [List.length_set]
        by_cases hj : j = i
        · subst hj
          rw [if_neg (by omega), if_pos (Nat.le_refl _), hg, List.getElem?_set_self hi]
          simp [upd, hm']
        · rw [List.getElem?_set_ne (fun h => hj h.symm)]
          by_cases h8 : i ≤ j
          · rw [if_pos (by omega), if_pos h8]
          · rw [if_neg (by omega), if_neg h8]

/-- The sectors of line `j` of a request for sectors `A … Z`. -/
theorem sectors_iff {S A Z j k : Nat} (hk : k < S) (hj : j + A / S ≤ Z / S) :
    ((if j = 0 then A % S else 0) ≤ k ∧ k ≤ (if j + 1 = Z / S - A / S + 1 then Z % S else S - 1)) ↔
      A ≤ (A / S + j) * S + k ∧ (A / S + j) * S + k ≤ Z := by
  have hA := Nat.div_add_mod A S
  have hZ := Nat.div_add_mod Z S
  have hAl := Nat.mod_lt A (show 0 < S by omega)
  have hZl := Nat.mod_lt Z (show 0 < S by omega)
  rw [Nat.mul_comm] at hA hZ
  apply and_congr
  · by_cases h0 : j = 0
    · subst h0
      simp only [if_true, Nat.add_zero]; omega
    · have h1 : A / S + 1 ≤ A / S + j := by omega
      have h2 := Nat.mul_le_mul_right S h1
      rw [Nat.add_mul, Nat.one_mul] at h2
      simp only [if_neg h0]; omega
  · by_cases h0 : j + 1 = Z / S - A / S + 1
    · have h1 : A / S + j = Z / S := by omega
      rw [h1, if_pos h0]; omega
    · have h1 : A / S + j + 1 ≤ Z / S := by omega
      have h2 := Nat.mul_le_mul_right S h1
      rw [Nat.add_mul _ 1, Nat.one_mul] at h2
      simp only [if_neg h0]; omega

/-! The running of a call. -/

/-- The first error reported, or 0. -/
def firstErr : List Int → Int
  | [] => 0
  | e :: r => if e = 0 then firstErr r else e

theorem firstErr_snoc (l : List Int) (e : Int) : firstErr (l ++ [e]) = if firstErr l = 0 then e else firstErr l := by
  induction l with
  | nil => simp [firstErr]; exact fun h => h.symm
  | cons a l ih =>
    simp only [List.cons_append, firstErr]
    by_cases h : a = 0
    · simp only [h, if_true, ih]
    · simp only [h, if_false]

/-- Commands of a plan. -/
def Plan.cmds : Plan → List Cmd
  | .now _ => []
  | .send _ _ l => l

/-- Holds at all times of a call of plan `p`. -/
structure Inv (p : Plan) (s : St) : Prop where
  rem : s.rem = s.fly.length + (if s.hold then 1 else 0)
  sent : s.sent ++ s.todo = p.cmds
  nohold : s.hold = false → s.todo ≠ [] → s.fly = [] ∧ s.out = [] ∧ s.todo.length = 1
  out : s.out = [] ∨ (s.todo = [] ∧ s.fly = [] ∧ s.hold = false ∧ ∃ e, s.out = [e] ∧ s.merr = (e != 0) ∧
    (p = .now e ∨ ((∀ e', p ≠ .now e') ∧ e = firstErr s.rep)))
  live : s.out = [] → (∀ e', p ≠ .now e') ∧ (s.hold = true ∨ s.fly ≠ [] ∨ s.todo ≠ [])
  err : s.err = firstErr s.rep
  quiet : s.out = [] → s.merr = false
  reps : s.rep.length + s.fly.length = s.sent.length

theorem plan_single (c : Ctx) (t : Bool) (l : List Cmd) (h : c.plan = .send false t l) : l.length = 1 := by
  unfold Ctx.plan at h
  split at h
  · cases h
  · split at h
    · split at h
      · cases h; rfl
      · cases h
    · split at h
      · cases h
      · cases h

theorem inv_begin (c : Ctx) : Inv c.plan (begin c) := by
  unfold begin
  cases h : c.plan with
  | now e => exact ⟨by simp, rfl, by simp, Or.inr ⟨rfl, rfl, rfl, e, rfl, rfl, Or.inl rfl⟩, by simp, rfl, by simp, rfl⟩
  | send hd t l =>
    refine ⟨by simp, by simp [Plan.cmds], ?_, Or.inl rfl, ?_, rfl, fun _ => rfl, rfl⟩
    · intro h1 _
      simp only at h1
      subst h1
      exact ⟨rfl, rfl, plan_single c t l h⟩
    · intro _
      refine ⟨by simp, ?_⟩
      cases hd with
      | true => exact Or.inl rfl
      | false =>
        have := plan_single c t l h
        refine Or.inr (Or.inr ?_)
        intro h2
        simp only at h2
        simp [h2] at this

theorem inv_step (p : Plan) (s t : St) (hi : Inv p s) (h : Step s t) : Inv p t := by
  obtain ⟨h1, h2, h3, h4, h5, h6, h7, h8⟩ := hi
  cases h with
  | send c r hc =>
    have ho : s.out = [] := by
      rcases h4 with h | ⟨h, _⟩
      · exact h
      · simp [h] at hc
    refine ⟨?_, ?_, ?_, Or.inl ho, ?_, h6, h7, ?_⟩
    · simp only [St.send, List.length_cons, h1]; omega
    · simp only [St.send, List.append_assoc, List.singleton_append]; rw [← hc]; exact h2
    · intro hh hr
      have := (h3 hh (by simp [hc])).2.2
      rw [hc] at this
      simp at this
      exact absurd this hr
    · intro _
      exact ⟨(h5 ho).1, Or.inr (Or.inl (by simp [St.send]))⟩
    · simp only [St.send, List.length_cons, List.length_append, List.length_nil]; omega
  | fin c e hc =>
    have ho : s.out = [] := by
      rcases h4 with h | ⟨_, h, _⟩
      · exact h
      · simp [h] at hc
    have hl : (s.fly.erase c).length = s.fly.length - 1 := List.length_erase_of_mem hc
    have hp : 0 < s.fly.length := List.length_pos_of_mem hc
    have he : (if s.err = 0 then e else s.err) = firstErr (s.rep ++ [e]) := by rw [firstErr_snoc, h6]
    have hnt : s.hold = false → s.todo = [] := by
      intro hh
      refine Classical.byContradiction fun hr => ?_
      have := (h3 hh hr).1
      simp [this] at hc
    unfold St.fin St.put
    simp only
    split
    · rename_i hz
      have hh : s.hold = false := by
        cases hh : s.hold with
        | false => rfl
        | true => rw [h1, hh] at hz; simp at hz; simp [hz] at hp
      have hf : s.fly.erase c = [] := by
        apply List.eq_nil_of_length_eq_zero
        rw [h1, hh] at hz; simp at hz; omega
      have ht := hnt hh
      refine ⟨?_, h2, ?_, ?_, ?_, he, ?_, ?_⟩
      · simp only [St.cmpl, hf, hh, hz]; simp
      · intro _ hr; exact absurd ht hr
      · refine Or.inr ⟨ht, hf, hh, _, by simp [St.cmpl, ho], by simp [St.cmpl, h7 ho], Or.inr ⟨(h5 ho).1, he⟩⟩
      · simp [St.cmpl]
      · simp [St.cmpl]
      · simp only [St.cmpl, List.length_append, List.length_cons, List.length_nil]; omega
    · rename_i hz
      refine ⟨?_, h2, ?_, Or.inl ho, ?_, he, h7, ?_⟩
      · simp only [h1, hl]; omega
      · intro hh hr; exact absurd (hnt hh) hr
      · intro _
        refine ⟨(h5 ho).1, ?_⟩
        cases hh : s.hold with
        | true => exact Or.inl rfl
        | false =>
          refine Or.inr (Or.inl ?_)
          intro hf
          simp only at hf
          rw [hf] at hl
          rw [h1, hh] at hz
          simp at hl hz
          omega
      · simp only [List.length_append, List.length_cons, List.length_nil]; omega
  | put ht hh =>
    have ho : s.out = [] := by
      rcases h4 with h | ⟨_, _, h, _⟩
      · exact h
      · simp [h] at hh
    rw [hh] at h1
    unfold St.put
    simp only
    split
    · rename_i hz
      have hf : s.fly = [] := by
        apply List.eq_nil_of_length_eq_zero
        rw [h1] at hz; simp at hz; simp [hz]
      refine ⟨?_, h2, ?_, ?_, ?_, h6, ?_, h8⟩
      · simp only [St.cmpl, hf, hz]; simp
      · intro _ hr; exact absurd ht hr
      · exact Or.inr ⟨ht, hf, rfl, _, by simp [St.cmpl, ho], by simp [St.cmpl, h7 ho], Or.inr ⟨(h5 ho).1, h6⟩⟩
      · simp [St.cmpl]
      · simp [St.cmpl]
    · rename_i hz
      refine ⟨?_, h2, ?_, Or.inl ho, ?_, h6, h7, h8⟩
      · simp only [h1]; simp
      · intro _ hr; exact absurd ht hr
      · intro _
        refine ⟨(h5 ho).1, Or.inr (Or.inl ?_)⟩
        intro hf
        simp only at hf
        rw [h1, hf] at hz
        simp at hz
  | free ht hh htab => exact ⟨h1, h2, h3, h4, h5, h6, h7, h8⟩

/-- What is left to do. -/
def rank (s : St) : Nat := 2 * s.todo.length + s.fly.length + (if s.hold then 1 else 0) + (if s.tab then 1 else 0)

@[simp] theorem put_rank (s : St) : rank s.put = rank s := by
  unfold St.put; split <;> rfl

theorem rank_step (s t : St) (h : Step s t) : rank t < rank s := by
  cases h with
  | send c r hc =>
    have h : rank (s.send c r) = 2 * r.length + (s.fly.length + 1) + (if s.hold then 1 else 0) +
      (if s.tab then 1 else 0) := rfl
    rw [h, rank, hc, List.length_cons]; omega
  | fin c e hc =>
    unfold St.fin
    rw [put_rank]
    have hp : 0 < s.fly.length := List.length_pos_of_mem hc
    simp only [rank, List.length_erase_of_mem hc]; omega
  | put ht hh => rw [put_rank]; simp only [rank, hh]; simp
  | free ht hh htab => simp only [rank, htab]; simp

end Verif.RawAtomic
