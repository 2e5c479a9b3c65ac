import Verif.Model.Space

/-! Lemmas about the choice of I/O classes. -/

namespace Verif.Space

/-- Lines received over a sequence of calls. -/
def gots (l : List Ev) : Nat := (l.map (·.got)).sum

theorem gots_nil : gots [] = 0 := rfl

theorem gots_cons (e : Ev) (l : List Ev) : gots (e :: l) = e.got + gots l := rfl

/-- The call made by `take`. -/
def evOf (orc : Nat → Nat) (s : St) (src : Option Nat) (n : Nat) : Ev :=
  ⟨src, n, min (orc s.log.length) (min n (s.size src)), s.size src⟩

theorem take_log (orc : Nat → Nat) (t : Nat) (s : St) (src : Option Nat) (n : Nat) :
    (take orc t s src n).1.log = evOf orc s src n :: s.log := rfl

theorem take_got (orc : Nat → Nat) (t : Nat) (s : St) (src : Option Nat) (n : Nat) :
    (take orc t s src n).2 = (evOf orc s src n).got := rfl

theorem evOf_le (orc : Nat → Nat) (s : St) (src : Option Nat) (n : Nat) :
    (evOf orc s src n).got ≤ n ∧ (evOf orc s src n).got ≤ s.size src := by
  unfold evOf; dsimp only; omega

theorem take_occ (orc : Nat → Nat) (t : Nat) (s : St) (src : Option Nat) (n c : Nat) :
    (take orc t s src n).1.occ c =
      (if src = some c then s.occ c - (evOf orc s src n).got else s.occ c) +
        (if c = t then (evOf orc s src n).got else 0) := by
  show (if c = t then _ + _ else _) = _
  split
  · rfl
  · simp only [Nat.add_zero]; rfl

/-- Occupancies change only as they may: class `t` never shrinks, and grows by at most what is
received; others never grow, and never shrink below their minimum. -/
structure Moves (g : Cfg) (t : Nat) (s s' : St) (total : Nat) : Prop where
  up : s.occ t ≤ s'.occ t
  grow : s'.occ t ≤ s.occ t + total
  down : ∀ c, c ≠ t → s'.occ c ≤ s.occ c
  keep : ∀ c, min (s.occ c) (g.minSize c) ≤ s'.occ c

theorem Moves.refl (g : Cfg) (t : Nat) (s : St) : Moves g t s s 0 :=
  ⟨Nat.le_refl _, Nat.le_refl _, fun _ _ => Nat.le_refl _, fun _ => Nat.min_le_left _ _⟩

theorem Moves.trans {g : Cfg} {t : Nat} {s s' s'' : St} {n m : Nat} (h : Moves g t s s' n)
    (h' : Moves g t s' s'' m) : Moves g t s s'' (n + m) :=
  ⟨Nat.le_trans h.up h'.up, by have := h.grow; have := h'.grow; omega,
    fun c hc => Nat.le_trans (h'.down c hc) (h.down c hc),
    fun c => by have := h.keep c; have := h'.keep c; omega⟩

theorem take_moves_free (orc : Nat → Nat) (g : Cfg) (t : Nat) (s : St) (n : Nat) :
    Moves g t s (take orc t s none n).1 (take orc t s none n).2 := by
  have h := fun c => take_occ orc t s none n c
  simp only [reduceCtorEq, ↓reduceIte] at h
  refine ⟨?_, ?_, ?_, ?_⟩
  · rw [h]; omega
  · rw [h, take_got]; simp
  · intro c hc; rw [h, if_neg hc]; omega
  · intro c; rw [h]; omega

theorem take_moves (orc : Nat → Nat) (g : Cfg) (t : Nat) (s : St) (c n : Nat)
    (hn : n + g.minSize c ≤ s.occ c) :
    Moves g t s (take orc t s (some c) n).1 (take orc t s (some c) n).2 := by
  have h := fun d => take_occ orc t s (some c) n d
  have hg := evOf_le orc s (some c) n
  have hs : s.size (some c) = s.occ c := rfl
  rw [hs] at hg
  simp only [Option.some.injEq] at h
  refine ⟨?_, ?_, ?_, ?_⟩
  · rw [h]; split
    · rename_i e; rw [e] at hg; simp only [↓reduceIte]; omega
    · omega
  · rw [h, take_got]; split <;> simp
  · intro d hd; rw [h, if_neg hd]; split <;> omega
  · intro d; rw [h]; split
    · rename_i e; subst e; split <;> omega
    · omega

theorem calculate_le (g : Cfg) (s : St) (c n : Nat) :
    calculate g s c n ≤ n ∧ calculate g s c n ≤ s.occ c - g.minSize c ∧
    (calculate g s c n = n ∨ calculate g s c n = s.occ c - g.minSize c) := by
  unfold calculate
  split
  · omega
  · split <;> omega

/-- A class is visited in the third pass. -/
def eligible (g : Cfg) (maxPrio : Int) (c : Nat) : Bool :=
  decide (maxPrio ≤ (g.cls c).prio) && g.evictable c

/-- What a pass over the classes does. -/
structure Pass (g : Cfg) (t need : Nat) (ov : Bool) (mp : Int) (cs : List Nat) (s : St)
    (evicted : Nat) (r : St × Nat) (L : List Ev) : Prop where
  log : r.1.log = L.reverse ++ s.log
  sum : r.2 = evicted + gots L
  le : r.2 ≤ need
  moves : Moves g t s r.1 (gots L)
  order : (L.map (·.src)).Sublist (cs.map some)
  each : ∀ e ∈ L, ∃ c, e.src = some c ∧ e.got ≤ e.asked ∧ 0 < e.asked ∧
    e.asked + g.minSize c ≤ e.before ∧ mp ≤ (g.cls c).prio ∧
    (ov = true → e.asked + g.maxSize c ≤ e.before) ∧ (ov = false → g.evictable c = true)
  full : ov = false → r.2 < need → ∀ c ∈ cs.takeWhile (eligible g mp),
    (s.occ c ≤ g.minSize c ∨ (c ≠ t ∧ r.1.occ c ≤ g.minSize c)) ∨
    ∃ e ∈ L, e.src = some c ∧ (e.got < e.asked ∨ e.before = e.asked + g.minSize c)
  fullOver : ov = true → (∀ c ∈ cs, mp ≤ (g.cls c).prio) → r.2 < need → ∀ c ∈ cs,
    (s.occ c ≤ max (g.maxSize c) (g.minSize c) ∨
      (c ≠ t ∧ r.1.occ c ≤ max (g.maxSize c) (g.minSize c))) ∨
    ∃ e ∈ L, e.src = some c ∧
      (e.got < e.asked ∨ e.before = e.asked + max (g.maxSize c) (g.minSize c))
  need_each : ∀ (l1 : List Ev) (e : Ev) (l2 : List Ev), L = l1 ++ e :: l2 →
    e.asked ≤ need - (evicted + gots l1)
  frame : r.1.free = s.free

theorem evictUser_pass (orc : Nat → Nat) (g : Cfg) (t need : Nat) (ov : Bool) (mp : Int) :
    ∀ (cs : List Nat) (s : St) (evicted : Nat), evicted < need →
      ∃ L, Pass g t need ov mp cs s evicted (evictUser orc g t need ov mp cs s evicted) L
  | [], s, ev, h =>
    ⟨[], rfl, rfl, Nat.le_of_lt h, Moves.refl g t s, List.Sublist.slnil, by simp, by simp, by simp,
      by simp, rfl⟩
  | c :: cs, s, ev, h => by
    unfold evictUser
    by_cases h1 : mp > (g.cls c).prio
    · rw [if_pos h1]
      refine ⟨[], rfl, rfl, Nat.le_of_lt h, Moves.refl g t s, by simp, by simp, ?_, ?_, by simp, rfl⟩
      rotate_left
      · intro _ hc; have := hc c (by simp); omega
      intro _ _ d hd
      have : eligible g mp c = false := by simp [eligible]; omega
      rw [List.takeWhile_cons, this] at hd
      simp at hd
    rw [if_neg h1]
    by_cases h2 : (!ov && !g.evictable c) = true
    · rw [if_pos h2]
      refine ⟨[], rfl, rfl, Nat.le_of_lt h, Moves.refl g t s, by simp, by simp, ?_, ?_, by simp, rfl⟩
      rotate_left
      · intro ho; simp [ho] at h2
      intro _ _ d hd
      have : eligible g mp c = false := by
        simp only [Bool.and_eq_true, Bool.not_eq_true'] at h2
        simp [eligible, h2.2]
      rw [List.takeWhile_cons, this] at hd
      simp at hd
    rw [if_neg h2]
    by_cases h3 : (ov && overflow g s c == 0) = true
    · rw [if_pos h3]
      obtain ⟨L, p⟩ := evictUser_pass orc g t need ov mp cs s ev h
      refine ⟨L, p.log, p.sum, p.le, p.moves, p.order.cons _, p.each, ?_, ?_, p.need_each, p.frame⟩
      · intro ho
        simp [ho] at h3
      · intro ho hc hlt d hd
        rcases List.mem_cons.1 hd with rfl | hd
        · left; left
          have : overflow g s d = 0 := by simpa [ho] using h3
          unfold overflow at this
          split at this <;> omega
        · exact p.fullOver ho (fun x hx => hc x (by simp [hx])) hlt d hd
    rw [if_neg h3]
    dsimp only
    have hcl := calculate_le g s c (need - ev)
    by_cases h4 : calculate g s c (need - ev) = 0
    · rw [if_pos h4]
      obtain ⟨L, p⟩ := evictUser_pass orc g t need ov mp cs s ev h
      refine ⟨L, p.log, p.sum, p.le, p.moves, p.order.cons _, p.each, ?_, ?_, p.need_each, p.frame⟩
      rotate_left
      · intro ho hc hlt d hd
        rcases List.mem_cons.1 hd with rfl | hd
        · left; left
          rw [h4] at hcl; omega
        · exact p.fullOver ho (fun x hx => hc x (by simp [hx])) hlt d hd
      intro ho hlt d hd
      rw [List.takeWhile_cons] at hd
      split at hd
      · rcases List.mem_cons.1 hd with rfl | hd
        · left; left
          rw [h4] at hcl; omega
        · exact p.full ho hlt d hd
      · simp at hd
    rw [if_neg h4]
    -- the call
    generalize hN : (if ov = true then min (calculate g s c (need - ev)) (overflow g s c)
      else calculate g s c (need - ev)) = N
    have hNle : N ≤ calculate g s c (need - ev) := by rw [← hN]; split <;> omega
    have hNpos : 0 < N := by
      rw [← hN]
      split
      · rename_i ho
        have : overflow g s c ≠ 0 := by simpa [ho] using h3
        omega
      · omega
    have hNov : ov = true → N + g.maxSize c ≤ s.occ c := by
      intro ho
      have : overflow g s c ≠ 0 := by simpa [ho] using h3
      have hNo : N ≤ overflow g s c := by rw [← hN, if_pos ho]; omega
      unfold overflow at this hNo
      split at hNo <;> omega
    have hNmin : N + g.minSize c ≤ s.occ c := by omega
    have hg := evOf_le orc s (some c) N
    have hm := take_moves orc g t s c N hNmin
    have hlog := take_log orc t s (some c) N
    have hgot := take_got orc t s (some c) N
    have hbef : (evOf orc s (some c) N).before = s.occ c := rfl
    have hask : (evOf orc s (some c) N).asked = N := rfl
    have hsrc : (evOf orc s (some c) N).src = some c := rfl
    have hfree : (take orc t s (some c) N).1.free = s.free := rfl
    have hocc := take_occ orc t s (some c) N
    revert hm hlog hgot hbef hask hsrc hfree hg hocc
    generalize take orc t s (some c) N = r
    generalize evOf orc s (some c) N = e
    intro hg hm hlog hgot hbef hask hsrc hfree hocc
    have heach : ∃ d, e.src = some d ∧ e.got ≤ e.asked ∧ 0 < e.asked ∧
        e.asked + g.minSize d ≤ e.before ∧ mp ≤ (g.cls d).prio ∧
        (ov = true → e.asked + g.maxSize d ≤ e.before) ∧ (ov = false → g.evictable d = true) := by
      refine ⟨c, hsrc, by rw [hask]; exact hg.1, by omega, by omega, by omega,
        fun ho => by have := hNov ho; omega, fun ho => ?_⟩
      simpa [ho] using h2
    -- if the search delivered everything asked, the class is at its minimum or the need is met
    have hdone : ov = false → r.2 + ev < need → e.got < e.asked ∨ e.before = e.asked + g.minSize c := by
      intro ho hlt
      have hNeq : N = calculate g s c (need - ev) := by rw [← hN, ho]; simp
      rcases hcl.2.2 with h5 | h5
      · left; omega
      · right; omega
    have hdoneOv : ov = true → r.2 + ev < need →
        e.got < e.asked ∨ e.before = e.asked + max (g.maxSize c) (g.minSize c) := by
      intro ho hlt
      have hNeq : N = min (calculate g s c (need - ev)) (overflow g s c) := by
        rw [← hN, if_pos ho]
      have h0 : overflow g s c ≠ 0 := by simpa [ho] using h3
      have hov : overflow g s c + g.maxSize c = s.occ c := by
        unfold overflow at h0 ⊢
        split at h0
        · rename_i hgt; rw [if_pos hgt]; omega
        · omega
      rcases hcl.2.2 with h5 | h5
      · by_cases h6 : overflow g s c < calculate g s c (need - ev)
        · by_cases h7 : e.got < e.asked
          · exact Or.inl h7
          · right; omega
        · left; omega
      · right; omega
    by_cases h5 : ev + r.2 ≥ need
    · rw [if_pos h5]
      refine ⟨[e], by simp [hlog], by simp [gots_cons, gots_nil, hgot], by omega,
        by rw [gots_cons, gots_nil, ← hgot]; exact hm, ?_, by simpa using heach, ?_, ?_, ?_, hfree⟩
      · simp [hsrc]
      · intro _ hlt
        have hlt : ev + r.2 < need := hlt
        omega
      · intro _ _ hlt
        have hlt : ev + r.2 < need := hlt
        omega
      · intro l1 x l2 hl
        have : l1 = [] ∧ e = x := by
          cases l1 with
          | nil => simp at hl; exact ⟨rfl, hl.1⟩
          | cons y l1 => simp at hl
        rw [← this.2, this.1, hask, gots_nil]; omega
    · rw [if_neg h5]
      obtain ⟨L, p⟩ := evictUser_pass orc g t need ov mp cs r.1 (ev + r.2) (by omega)
      refine ⟨e :: L, ?_, ?_, p.le, ?_, ?_, ?_, ?_, ?_, ?_, p.frame.trans hfree⟩
      · rw [p.log, hlog]; simp
      · rw [p.sum, gots_cons, hgot]; omega
      · rw [gots_cons, ← hgot]; exact hm.trans p.moves
      · simp only [List.map_cons, hsrc]; exact p.order.cons_cons _
      · intro x hx
        rcases List.mem_cons.1 hx with rfl | hx
        · exact heach
        · exact p.each x hx
      · intro ho hlt d hd
        rw [List.takeWhile_cons] at hd
        split at hd
        · rcases List.mem_cons.1 hd with rfl | hd
          · right
            refine ⟨e, by simp, hsrc, hdone ho ?_⟩
            have := p.sum; have := p.le; omega
          · rcases p.full ho hlt d hd with (h6 | h6) | ⟨x, hx, hx1, hx2⟩
            · left
              by_cases hdt : d = t
              · left; subst hdt; have := hm.up; omega
              · right; exact ⟨hdt, Nat.le_trans (p.moves.down d hdt) h6⟩
            · left; exact Or.inr h6
            · right; exact ⟨x, by simp [hx], hx1, hx2⟩
        · simp at hd
      · intro ho hc hlt d hd
        rcases List.mem_cons.1 hd with rfl | hd
        · right
          refine ⟨e, by simp, hsrc, hdoneOv ho ?_⟩
          have := p.sum; have := p.le; omega
        · rcases p.fullOver ho (fun x hx => hc x (by simp [hx])) hlt d hd with
            (h6 | h6) | ⟨x, hx, hx1, hx2⟩
          · left
            by_cases hdt : d = t
            · left; subst hdt; have := hm.up; omega
            · right; exact ⟨hdt, Nat.le_trans (p.moves.down d hdt) h6⟩
          · left; exact Or.inr h6
          · right; exact ⟨x, by simp [hx], hx1, hx2⟩
      · intro l1 x l2 hl
        cases l1 with
        | nil =>
          simp at hl
          rw [← hl.1, hask, gots_nil]; omega
        | cons y l1 =>
          simp at hl
          have := p.need_each l1 x l2 hl.2
          rw [gots_cons, ← hl.1, ← hgot]; omega

end Verif.Space
