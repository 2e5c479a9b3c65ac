import Verif.Model.CacheVisit
import Verif.Lemma.Common

/-! Lemmas for `Verif.Props.CacheVisit`. -/

namespace Verif.CacheVisit

@[simp] theorem upd_self {α} (f : Nat → α) (x : Nat) (v : α) : upd f x v x = v := by simp [upd]

theorem upd_ne {α} (f : Nat → α) {x y : Nat} (v : α) (h : y ≠ x) : upd f x v y = f y := by simp [upd, h]

/-- References the visit holds. -/
def held (s : St) : List Nat :=
  match s.pc with
  | .start => []
  | .copy _ => s.lst
  | .walk _ => s.lst
  | .visit _ _ => s.lst
  | .puts r _ => r
  | .ret _ => []

/-- The copy has the caches of the list, all but those being stopped. -/
def Copy (s : St) : Prop := s.lst.Sublist s.snap ∧ ∀ x ∈ s.snap, s.frz x = false → x ∈ s.lst

/-- The visitor was called as it should for a result. -/
def Fin (rev : Bool) (s : St) (e : Int) : Prop :=
  Copy s ∧ s.rets.length = s.seen.length ∧ (∃ r, order rev s.lst = s.seen ++ r) ∧
  ((e = 0 ∧ s.seen = order rev s.lst ∧ ∀ a ∈ s.rets, a = 0) ∨ (e ≠ 0 ∧ ∃ z, s.rets = z ++ [e] ∧ ∀ a ∈ z, a = 0))

/-- Memory could not be had. -/
def NoMem (s : St) (e : Int) : Prop := e = -12 ∧ s.seen = [] ∧ s.rets = [] ∧ s.snap ≠ []

/-- How far the visit is. -/
def Prog (rev : Bool) (s : St) : Prop :=
  match s.pc with
  | .start => s.lst = [] ∧ s.seen = [] ∧ s.rets = []
  | .copy rest => s.caches = s.snap ∧ s.seen = [] ∧ s.rets = [] ∧
      ∃ d, s.snap = d ++ rest ∧ s.lst.Sublist d ∧ ∀ x ∈ d, s.frz x = false → x ∈ s.lst
  | .walk rest => Copy s ∧ order rev s.lst = s.seen ++ rest ∧ (∀ a ∈ s.rets, a = 0) ∧ s.rets.length = s.seen.length
  | .visit x rest => Copy s ∧ order rev s.lst = s.seen ++ rest ∧ (∀ a ∈ s.rets, a = 0) ∧
      s.rets.length + 1 = s.seen.length ∧ x ∈ s.lst
  | .puts _ e => Fin rev s e
  | .ret e => Fin rev s e ∨ NoMem s e

def isCopy : Pc → Bool
  | .copy _ => true
  | _ => false

def hasMem : Pc → Bool
  | .start => false
  | .ret _ => false
  | _ => true

structure Inv (rev : Bool) (s : St) : Prop where
  rc : ∀ x, s.rc x = s.oth x + (held s).count x
  nodup : s.caches.Nodup
  live : ∀ x ∈ s.caches, s.frz x = true → 0 < s.oth x
  freed : ∀ x, s.freed x = true → s.rc x = 0 ∧ s.frz x = true ∧ x ∉ s.caches
  bad : s.bad = false
  lock : s.lock = isCopy s.pc
  mem : s.mem = hasMem s.pc
  prog : Prog rev s

theorem inv_init (rev : Bool) (s : St) (h : Init s) : Inv rev s := by
  obtain ⟨h1, h2, h3, h4, h5, h6, h7, h8, h9, h10, h11⟩ := h
  refine ⟨?_, h5, h6, h7, h10, ?_, ?_, ?_⟩
  · intro x; simp [held, h1, h4]
  · simp [h1, h2, isCopy]
  · simp [h1, h3, hasMem]
  · simp [Prog, h1, h8, h9, h11]

theorem mem_order {rev : Bool} {l : List Nat} {x : Nat} : x ∈ order rev l ↔ x ∈ l := by
  unfold order; split <;> simp

/-- A reference held keeps a cache. -/
theorem held_live {rev : Bool} {s : St} (hi : Inv rev s) {x : Nat} (hx : x ∈ held s) : s.freed x = false ∧ 0 < s.rc x := by
  have h1 := hi.rc x
  have h2 : 0 < (held s).count x := List.count_pos_iff.2 hx
  refine ⟨?_, by omega⟩
  cases hf : s.freed x with
  | false => rfl
  | true => have := (hi.freed x hf).1; omega

theorem prog_mono {rev : Bool} {s t : St} (h1 : t.pc = s.pc) (h2 : t.lst = s.lst) (h3 : t.snap = s.snap)
    (h4 : t.seen = s.seen) (h5 : t.rets = s.rets) (h6 : ∀ x, t.frz x = false → s.frz x = false)
    (h7 : s.lock = true → t.caches = s.caches) (hl : s.lock = isCopy s.pc) (hp : Prog rev s) : Prog rev t := by
  have hc : Copy s → Copy t := by
    rintro ⟨a, b⟩
    unfold Copy
    rw [h2, h3]
    exact ⟨a, fun x hx hf => b x hx (h6 x hf)⟩
  have hf : ∀ e, Fin rev s e → Fin rev t e := by
    rintro e ⟨a, b⟩
    unfold Fin
    rw [h2, h4, h5]
    exact ⟨hc a, b⟩
  unfold Prog at hp ⊢
  rw [h1]
  cases hpc : s.pc with
  | start => rw [hpc] at hp; simp only at hp ⊢; rw [h2, h4, h5]; exact hp
  | copy r =>
    rw [hpc] at hp; simp only at hp ⊢
    rw [hpc] at hl
    rw [h7 hl, h2, h3, h4, h5]
    obtain ⟨a, b, c, d, e, f, g⟩ := hp
    exact ⟨a, b, c, d, e, f, fun x hx hf => g x hx (h6 x hf)⟩
  | walk r => rw [hpc] at hp; simp only at hp ⊢; rw [h2, h4, h5]; exact ⟨hc hp.1, hp.2⟩
  | visit x r => rw [hpc] at hp; simp only at hp ⊢; rw [h2, h4, h5]; exact ⟨hc hp.1, hp.2⟩
  | puts r e => rw [hpc] at hp; exact hf e hp
  | ret e =>
    rw [hpc] at hp; simp only at hp ⊢
    rcases hp with hp | hp
    · exact Or.inl (hf e hp)
    · refine Or.inr ?_
      unfold NoMem
      rw [h3, h4, h5]; exact hp

theorem inv_env (rev : Bool) (s t : St) (hi : Inv rev s) (h : EStep s t) : Inv rev t := by
  obtain ⟨h1, h2, h3, h4, h5, h6, h7, h8⟩ := hi
  cases h with
  | add x hl hx hf hr hz =>
    refine ⟨?_, ?_, ?_, ?_, h5, h6, h7, prog_mono (s := s) rfl rfl rfl rfl rfl (fun _ h => h) ?_ h6 h8⟩
    · intro y
      change _ = _ + (held s).count y
      have := h1 y
      by_cases hy : y = x
      · subst hy; simp only [upd_self]; omega
      · simp only [upd_ne _ _ hy]; exact this
    · simp only
      rw [List.nodup_append]
      refine ⟨h2, by simp, ?_⟩
      intro a ha b hb hab
      simp at hb
      subst hb hab
      exact hx ha
    · intro y hy hfz
      by_cases hyx : y = x
      · subst hyx; simp
      · simp only [upd_ne _ _ hyx]
        simp [hyx] at hy
        exact h3 y hy hfz
    · intro y hy
      have hyx : y ≠ x := by rintro rfl; simp [hf] at hy
      simp only [upd_ne _ _ hyx]
      obtain ⟨a, b, c⟩ := h4 y hy
      exact ⟨a, b, by simp [c, hyx]⟩
    · intro h; simp [hl] at h
  | get x hz hf =>
    refine ⟨?_, h2, ?_, ?_, h5, h6, h7, prog_mono (s := s) rfl rfl rfl rfl rfl (fun _ h => h) (fun _ => rfl) h6 h8⟩
    · intro y
      change _ = _ + (held s).count y
      have := h1 y
      by_cases hy : y = x
      · subst hy; simp only [upd_self]; omega
      · simp only [upd_ne _ _ hy]; exact this
    · intro y hy hfz
      by_cases hyx : y = x
      · subst hyx; simp
      · simp only [upd_ne _ _ hyx]
        exact h3 y hy hfz
    · intro y hy
      have hyx : y ≠ x := by rintro rfl; simp [hf] at hy
      simp only [upd_ne _ _ hyx]
      exact h4 y hy
  | put x ho hc =>
    have hrx := h1 x
    have hfx : s.freed x = false := by
      cases hf : s.freed x with
      | false => rfl
      | true => have := (h4 x hf).1; omega
    refine ⟨?_, h2, ?_, ?_, ?_, h6, h7, prog_mono (s := s) rfl rfl rfl rfl rfl (fun _ h => h) (fun _ => rfl) h6 h8⟩
    · intro y
      change _ = _ + (held s).count y
      have := h1 y
      simp only [St.put]
      by_cases hy : y = x
      · subst hy; simp only [upd_self]; omega
      · simp only [upd_ne _ _ hy]; exact this
    · intro y hy hfz
      by_cases hyx : y = x
      · subst hyx; simp only [upd_self]; have := hc hfz hy; omega
      · simp only [upd_ne _ _ hyx]
        exact h3 y hy hfz
    · intro y hy
      simp only [St.put] at hy ⊢
      by_cases hyx : y = x
      · subst hyx
        split at hy
        · rename_i hq
          simp only [Bool.and_eq_true, beq_iff_eq] at hq
          refine ⟨by simp [hq.2], hq.1, ?_⟩
          intro hm
          have := hc hq.1 hm
          omega
        · simp [hfx] at hy
      · simp only [upd_ne _ _ hyx]
        split at hy
        · simp only [upd_ne _ _ hyx] at hy; exact h4 y hy
        · exact h4 y hy
    · simp only [St.put, h5, hfx, Bool.false_or, beq_eq_false_iff_ne]; omega
  | freeze x hx ho =>
    refine ⟨?_, h2, ?_, ?_, h5, h6, h7, prog_mono (s := s) rfl rfl rfl rfl rfl ?_ (fun _ => rfl) h6 h8⟩
    · intro y; change _ = _ + (held s).count y; exact h1 y
    · intro y hy hfz
      by_cases hyx : y = x
      · subst hyx; exact ho
      · simp only [upd_ne _ _ hyx] at hfz; exact h3 y hy hfz
    · intro y hy
      obtain ⟨a, b, c⟩ := h4 y hy
      refine ⟨a, ?_, c⟩
      by_cases hyx : y = x
      · subst hyx; simp
      · simp only [upd_ne _ _ hyx]; exact b
    · intro y hy
      by_cases hyx : y = x
      · subst hyx; simp at hy
      · simpa only [upd_ne _ _ hyx] using hy
  | del x hl hz =>
    refine ⟨?_, h2.filter _, ?_, ?_, h5, h6, h7, prog_mono (s := s) rfl rfl rfl rfl rfl (fun _ h => h) ?_ h6 h8⟩
    · intro y; change _ = _ + (held s).count y; exact h1 y
    · intro y hy hfz; exact h3 y (List.mem_filter.1 hy).1 hfz
    · intro y hy
      obtain ⟨a, b, c⟩ := h4 y hy
      exact ⟨a, b, fun h => c (List.mem_filter.1 h).1⟩
    · intro h; simp [hl] at h

theorem inv_visit (rev : Bool) (s t : St) (hi : Inv rev s) (h : VStep rev s t) : Inv rev t := by
  have hheld := @held_live rev s hi
  obtain ⟨h1, h2, h3, h4, h5, h6, h7, h8⟩ := hi
  cases h with
  | begin m hp =>
    simp only [hp, held, isCopy, hasMem, Prog] at h1 h6 h7 h8
    unfold St.begin
    simp only
    split
    · rename_i hl
      have hl' := List.eq_nil_of_length_eq_zero hl
      refine ⟨by simpa [held] using h1, h2, h3, h4, h5, h6, h7, Or.inl ?_⟩
      simp [Fin, Copy, hl', h8, order]
    · rename_i hl
      split
      · exact ⟨by simpa [held] using h1, h2, h3, h4, h5, rfl, rfl,
          rfl, h8.2.1, h8.2.2, [], by simp, by simp, by simp⟩
      · refine ⟨by simpa [held] using h1, h2, h3, h4, h5, h6, h7, Or.inr ⟨rfl, h8.2.1, h8.2.2, ?_⟩⟩
        intro h; simp at hl; exact hl h
  | copy x r hp =>
    simp only [hp, held, isCopy, hasMem, Prog] at h1 h6 h7 h8
    obtain ⟨a, b, c, d, e, f, g⟩ := h8
    have hxc : x ∈ s.caches := by rw [a, e]; simp
    have hfx : s.freed x = false := by
      cases hf : s.freed x with
      | false => rfl
      | true => exact absurd hxc (h4 x hf).2.2
    unfold St.copy1 St.tryGet
    simp only [h5, hfx, Bool.or_false]
    by_cases hz : s.frz x = true
    · simp only [hz, if_true]
      refine ⟨by simpa [held] using h1, h2, h3, h4, by simp, h6, h7, ?_⟩
      refine ⟨a, b, c, d ++ [x], by simp [e], f.trans (List.sublist_append_left ..), ?_⟩
      intro y hy hf
      rcases List.mem_append.1 hy with hy | hy
      · exact g y hy hf
      · simp at hy; subst hy; simp [hz] at hf
    · simp only [if_neg hz]
      refine ⟨?_, h2, h3, ?_, rfl, h6, h7, ?_⟩
      · intro y
        have := h1 y
        simp only [held, List.count_append, List.count_singleton]
        by_cases hy : y = x
        · subst hy; simp; omega
        · have hxy : ¬ x = y := fun h => hy h.symm
          simp only [upd_ne _ _ hy]; simp [hxy]; omega
      · intro y hy
        have hyx : y ≠ x := by rintro rfl; simp [hfx] at hy
        simp only [upd_ne _ _ hyx]
        exact h4 y hy
      · refine ⟨a, b, c, d ++ [x], by simp [e], List.Sublist.append f (List.Sublist.refl _), ?_⟩
        intro y hy hf
        rcases List.mem_append.1 hy with hy | hy
        · exact List.mem_append_left _ (g y hy hf)
        · exact List.mem_append_right _ hy
  | copied hp =>
    simp only [hp, held, isCopy, hasMem, Prog] at h1 h6 h7 h8
    obtain ⟨a, b, c, d, e, f, g⟩ := h8
    rw [List.append_nil] at e
    have hc : Copy s := by unfold Copy; rw [e]; exact ⟨f, g⟩
    unfold St.copied St.free
    simp only
    split
    · rename_i hl
      have hl' := List.eq_nil_of_length_eq_zero hl
      refine ⟨by simpa [held, hl'] using h1, h2, h3, h4, by simp [h5, h7], rfl, rfl, Or.inl ?_⟩
      exact ⟨hc, by simp [b, c], ⟨order rev s.lst, by simp [b]⟩, Or.inl ⟨rfl, by simp [b, hl', order], by simp [c]⟩⟩
    · exact ⟨by simpa [held] using h1, h2, h3, h4, h5, rfl, h7, hc, by simp [b], by simp [c], by simp [b, c]⟩
  | call x r hp =>
    simp only [hp, held] at hheld
    simp only [hp, held, isCopy, hasMem, Prog] at h1 h6 h7 h8
    obtain ⟨a, b, c, d⟩ := h8
    have hx : x ∈ s.lst := by rw [← mem_order (rev := rev), b]; simp
    refine ⟨by simpa [held, St.call] using h1, h2, h3, h4, ?_, h6, h7, ?_⟩
    · simp [St.call, h5, (hheld hx).1]
    · exact ⟨a, by simp [St.call, b], c, by simp [St.call, d], hx⟩
  | back x r e hp =>
    simp only [hp, held, isCopy, hasMem, Prog] at h1 h6 h7 h8
    obtain ⟨a, b, c, d, _⟩ := h8
    unfold St.back
    simp only
    split
    · rename_i he
      exact ⟨by simpa [held] using h1, h2, h3, h4, h5, h6, h7,
        a, by simp [d], ⟨r, b⟩, Or.inr ⟨he, s.rets, rfl, c⟩⟩
    · rename_i he
      have he : e = 0 := Classical.byContradiction he
      refine ⟨by simpa [held] using h1, h2, h3, h4, h5, h6, h7, a, b, ?_, by simp [d]⟩
      intro y hy
      rcases List.mem_append.1 hy with hy | hy
      · exact c y hy
      · simp at hy; rw [hy]; exact he
  | over hp =>
    simp only [hp, held, isCopy, hasMem, Prog] at h1 h6 h7 h8
    obtain ⟨a, b, c, d⟩ := h8
    rw [List.append_nil] at b
    exact ⟨by simpa [held] using h1, h2, h3, h4, h5, h6, h7, a, d, ⟨[], by simp [b]⟩, Or.inl ⟨rfl, b.symm, c⟩⟩
  | put x r e hp =>
    simp only [hp, held] at hheld
    obtain ⟨hfx, hrx⟩ := hheld (List.mem_cons_self ..)
    simp only [hp, held, isCopy, hasMem, Prog] at h1 h6 h7 h8
    have h1x := h1 x
    simp only [List.count_cons_self] at h1x
    refine ⟨?_, h2, h3, ?_, ?_, h6, h7, h8⟩
    · intro y
      have := h1 y
      simp only [held, St.put]
      by_cases hy : y = x
      · subst hy; simp only [upd_self]; omega
      · have hxy : ¬ x = y := fun h => hy h.symm
        simp only [upd_ne _ _ hy]
        rw [List.count_cons_of_ne hxy] at this
        exact this
    · intro y hy
      simp only [St.put] at hy ⊢
      by_cases hyx : y = x
      · subst hyx
        split at hy
        · rename_i hq
          simp only [Bool.and_eq_true, beq_iff_eq] at hq
          refine ⟨by simp [hq.2], hq.1, ?_⟩
          intro hm
          have := h3 y hm hq.1
          omega
        · simp [hfx] at hy
      · simp only [upd_ne _ _ hyx]
        split at hy
        · simp only [upd_ne _ _ hyx] at hy; exact h4 y hy
        · exact h4 y hy
    · simp only [St.put, h5, hfx, Bool.false_or, beq_eq_false_iff_ne]; omega
  | done e hp =>
    simp only [hp, held, isCopy, hasMem, Prog] at h1 h6 h7 h8
    exact ⟨by simpa [held, St.free] using h1, h2, h3, h4, by simp [St.free, h5, h7], h6, rfl, Or.inl h8⟩

theorem inv_step (rev : Bool) (s t : St) (hi : Inv rev s) (h : Step rev s t) : Inv rev t := by
  cases h with
  | v h => exact inv_visit rev s t hi h
  | e h => exact inv_env rev s t hi h

end Verif.CacheVisit
