import Verif.Lemma.Common
import Verif.Model.LruClean

namespace Verif

theorem sum_map_set {α} (f : α → Nat) (l : List α) (i : Nat) (a x : α) (h : l[i]? = some x) :
    ((l.set i a).map f).sum + f x = (l.map f).sum + f a := by
  induction l generalizing i with
  | nil => simp at h
  | cons b l ih =>
    cases i with
    | zero =>
      simp at h; subst h
      simp only [List.set_cons_zero, List.map_cons, List.sum_cons]; omega
    | succ i =>
      simp at h
      have := ih i h
      simp only [List.set_cons_succ, List.map_cons, List.sum_cons]; omega

theorem le_sum_map {α} (f : α → Nat) (l : List α) (x : α) (h : x ∈ l) : f x ≤ (l.map f).sum := by
  induction l with
  | nil => simp at h
  | cons b l ih =>
    simp only [List.map_cons, List.sum_cons]
    rcases List.mem_cons.1 h with rfl | h
    · omega
    · have := ih h; omega

theorem countP_two {α} (p : α → Bool) (l : List α) (i j : Nat) (a x y : α) (ha : p a = false)
    (hi : l[i]? = some x) (hj : l[j]? = some y) (hij : i ≠ j) (hx : p x = true) (hy : p y = true) :
    2 ≤ l.countP p := by
  have h1 := countP_set p l i a x hi
  rw [if_pos hx, ha] at h1
  have h2 := countP_pos_of_get p (l.set i a) j y (by rw [List.getElem?_set_ne hij]; exact hj) hy
  simp at h1
  omega

end Verif

namespace Verif.LruClean

/-- inside the function, holding a reference. -/
def Pc.inside : Pc → Bool
  | .idle | .enter => false
  | _ => true

/-- between setting the flag and resetting it. -/
def Pc.owner : Pc → Bool
  | .scan _ | .none | .found _ | .fly _ | .unlock _ _ | .reset => true
  | _ => false

/-- read locks still to be given back. -/
def Pc.lines : Pc → List Nat
  | .scan ls | .found ls | .fly ls | .unlock _ ls => ls
  | _ => []

/-- the entries from `k` on are `ls`. -/
def Holds (es : List (Option Nat)) (k : Nat) (ls : List Nat) : Prop :=
  k + ls.length ≤ cap ∧ ∀ j, j < ls.length → es[k + j]? = ls[j]?.map some

/-- the entries end at `n`. -/
def Ends (es : List (Option Nat)) (n : Nat) : Prop := n = cap ∨ es[n]? = some none

def EntOk (es : List (Option Nat)) : Pc → Prop
  | .scan ls => Holds es 0 ls
  | .found ls | .fly ls => Holds es 0 ls ∧ Ends es ls.length ∧ ls ≠ []
  | .unlock k ls => Holds es k ls ∧ Ends es (k + ls.length)
  | _ => True

structure Inv (s : St) : Prop where
  len : s.entries.length = cap
  cnt : s.count = s.pcs.countP Pc.inside
  flag : s.pcs.countP Pc.owner + (if s.leaked then 1 else 0) = if s.running then 1 else 0
  locks : ∀ l, s.locks l = (s.pcs.map (fun p => p.lines.count l)).sum
  ent : ∀ (i : Nat) (p : Pc), s.pcs[i]? = some p → EntOk s.entries p

theorem init_inv (n : Nat) (es : List (Option Nat)) (h : es.length = cap) : Inv (init n es) := by
  refine ⟨h, ?_, ?_, ?_, ?_⟩
  · simp [init, List.countP_replicate, Pc.inside]
  · simp [init, List.countP_replicate, Pc.owner]
  · intro l; simp [init, Pc.lines]
  · intro i p hp
    have : p = .idle := by
      have := List.mem_of_getElem? hp
      exact (List.mem_replicate.1 this).2
    subst this; trivial

theorem entOk_of_not_owner {es : List (Option Nat)} {p : Pc} (h : p.owner = false) : EntOk es p := by
  cases p <;> first | trivial | simp [Pc.owner] at h

/-- at most one owner. -/
theorem one_owner {s : St} (hs : Inv s) : s.pcs.countP Pc.owner ≤ 1 := by
  have := hs.flag
  split at this <;> split at this <;> omega

/-- how a step changes the state. -/
theorem move {s s' : St} (hs : Inv s) {i : Nat} {x y : Pc} (hi : s.pcs[i]? = some x)
    (hp : s'.pcs = s.pcs.set i y) (hlen : s'.entries.length = cap)
    (hcnt : s'.count + (if x.inside then 1 else 0) = s.count + (if y.inside then 1 else 0))
    (hflag : (if s'.running then 1 else 0) + (if s.leaked then 1 else 0) + (if x.owner then 1 else 0)
      = (if s.running then 1 else 0) + (if s'.leaked then 1 else 0) + (if y.owner then 1 else 0))
    (hlocks : ∀ l, s'.locks l + x.lines.count l = s.locks l + y.lines.count l)
    (hent : EntOk s'.entries y) (hw : s'.entries = s.entries ∨ x.owner = true) : Inv s' := by
  refine ⟨hlen, ?_, ?_, ?_, ?_⟩
  · have := countP_set Pc.inside s.pcs i y x hi
    have h2 := hs.cnt
    rw [hp]; omega
  · have := countP_set Pc.owner s.pcs i y x hi
    have h2 := hs.flag
    rw [hp]; omega
  · intro l
    have := sum_map_set (fun p : Pc => p.lines.count l) s.pcs i y x hi
    have h2 := hs.locks l
    have h3 := hlocks l
    rw [hp]
    omega
  · intro j p hj
    rw [hp] at hj
    by_cases hij : i = j
    · subst hij
      have : (s.pcs.set i y)[i]? = some y := by
        rw [List.getElem?_set_self]
        exact (List.getElem?_eq_some_iff.1 hi).1
      rw [this] at hj; cases hj; exact hent
    · rw [List.getElem?_set_ne hij] at hj
      rcases hw with hw | hw
      · rw [hw]; exact hs.ent j p hj
      · cases ho : p.owner with
        | false => exact entOk_of_not_owner ho
        | true =>
          have h2 := countP_two Pc.owner s.pcs i j .idle x p rfl hi hj hij hw ho
          have := one_owner hs
          omega

theorem owner_facts {s : St} (hs : Inv s) {i : Nat} {p : Pc} (hi : s.pcs[i]? = some p)
    (ho : p.owner = true) : s.running = true ∧ s.leaked = false := by
  have hfl := hs.flag
  have hpos := countP_pos_of_get Pc.owner s.pcs i p hi ho
  cases hr : s.running with
  | false => rw [hr, if_neg (c := false = true) (by decide)] at hfl; omega
  | true =>
    refine ⟨rfl, ?_⟩
    cases hl : s.leaked with
    | false => rfl
    | true => rw [hl, hr, if_pos rfl] at hfl; omega

theorem holds_snoc {es : List (Option Nat)} {ls : List Nat} {l : Nat} (h : Holds es 0 ls)
    (hl : ls.length < cap) (he : es.length = cap) :
    Holds (es.set ls.length (some l)) 0 (ls ++ [l]) := by
  refine ⟨by simp; omega, fun j hj => ?_⟩
  simp only [List.length_append, List.length_cons, List.length_nil] at hj
  by_cases hj' : j < ls.length
  · have := h.2 j hj'
    rw [Nat.zero_add] at this ⊢
    rw [List.getElem?_set_ne (by omega), this, List.getElem?_append_left hj']
  · have : j = ls.length := by omega
    subst this
    rw [Nat.zero_add, List.getElem?_set_self (by omega)]
    simp

theorem holds_stop {es : List (Option Nat)} {ls : List Nat} (h : Holds es 0 ls) :
    Holds (es.set ls.length none) 0 ls := by
  refine ⟨h.1, fun j hj => ?_⟩
  have := h.2 j hj
  rw [Nat.zero_add] at this ⊢
  rw [List.getElem?_set_ne (by omega), this]

theorem holds_sorted {es : List (Option Nat)} {ls ls' : List Nat} (h : Holds es 0 ls)
    (hp : ls'.length = ls.length) : Holds (ls'.map some ++ es.drop ls'.length) 0 ls' := by
  refine ⟨by have := h.1; omega, fun j hj => ?_⟩
  rw [Nat.zero_add, List.getElem?_append_left (by simpa using hj), List.getElem?_map]

theorem ends_sorted {es : List (Option Nat)} {ls ls' : List Nat} (h : Ends es ls.length)
    (hp : ls'.length = ls.length) : Ends (ls'.map some ++ es.drop ls'.length) ls'.length := by
  rcases h with h | h
  · exact Or.inl (by omega)
  · refine Or.inr ?_
    rw [List.getElem?_append_right (by simp)]
    simp [hp, h]

theorem holds_tail {es : List (Option Nat)} {k l : Nat} {ls : List Nat}
    (h : Holds es k (l :: ls)) : Holds es (k + 1) ls := by
  refine ⟨by have := h.1; simp at this; omega, fun j hj => ?_⟩
  have := h.2 (j + 1) (by simp; omega)
  rw [show k + 1 + j = k + (j + 1) by omega, this]
  simp

theorem step_inv {want : Nat} (hwant : cap ≤ want) {s s' : St} {o : Op} (hs : Inv s)
    (h : exec want s o = some s') : Inv s' := by
  have hmin : min want cap = cap := Nat.min_eq_right hwant
  cases o with
  | call i locked =>
    simp only [exec] at h
    split at h
    · rename_i hi
      cases h
      cases locked
      · exact move hs hi rfl hs.len rfl (by simp [Pc.owner]) (fun l => rfl) trivial (Or.inl rfl)
      · exact move hs hi rfl hs.len rfl (by simp [Pc.owner]) (fun l => rfl) trivial (Or.inl rfl)
    · cases h
  | ref i =>
    simp only [exec] at h
    split at h
    · rename_i hi
      split at h
      · cases h
        exact move hs hi rfl hs.len rfl (by simp [Pc.owner]) (fun l => rfl) trivial (Or.inl rfl)
      · cases h
        exact move hs hi rfl hs.len (by simp [Pc.inside]) (by simp [Pc.owner]) (fun l => rfl) trivial
          (Or.inl rfl)
    · cases h
  | flag i =>
    simp only [exec] at h
    split at h
    · rename_i hi
      split at h
      · cases h
        exact move hs hi rfl hs.len rfl (by simp [Pc.owner]) (fun l => rfl) trivial (Or.inl rfl)
      · rename_i hr
        cases h
        exact move hs hi rfl hs.len rfl (by simp [Pc.owner, hr]; omega) (fun l => rfl)
          ⟨by simp, by simp⟩ (Or.inl rfl)
    · cases h
  | line i l =>
    simp only [exec] at h
    split at h
    · rename_i ls hi
      rw [hmin] at h
      split at h
      · rename_i hlt
        cases h
        have he := hs.ent i _ hi
        refine move hs hi rfl (by simp [hs.len]) rfl (by simp [Pc.owner]) (fun x => ?_)
          (holds_snoc he hlt hs.len) (Or.inr rfl)
        simp only [bump, Pc.lines, List.count_append, List.count_singleton]
        by_cases hx : x = l
        · subst hx; simp; omega
        · rw [if_neg hx, if_neg (by simpa using fun h => hx h.symm)]; omega
      · cases h
    · cases h
  | stop i =>
    simp only [exec] at h
    split at h
    · rename_i ls hi
      rw [hmin] at h
      cases h
      have he : Holds s.entries 0 ls := hs.ent i _ hi
      have hlen : (if ls.length < cap then s.entries.set ls.length none else s.entries).length = cap := by
        split <;> simp [hs.len]
      have hh : Holds (if ls.length < cap then s.entries.set ls.length none else s.entries) 0 ls := by
        split
        · exact holds_stop he
        · exact he
      have hend : Ends (if ls.length < cap then s.entries.set ls.length none else s.entries) ls.length := by
        split
        · rename_i hlt
          exact Or.inr (by rw [List.getElem?_set_self (by rw [hs.len]; exact hlt)])
        · exact Or.inl (by have := he.1; omega)
      cases hls : ls with
      | nil =>
        subst hls
        exact move hs hi rfl hlen rfl (by simp [Pc.owner]) (fun x => rfl) trivial (Or.inr rfl)
      | cons a as =>
        rw [← hls]
        have hne : ls ≠ [] := by rw [hls]; simp
        refine move hs hi (y := .found ls) ?_ hlen rfl (by simp [Pc.owner]) (fun x => rfl)
          ⟨hh, hend, hne⟩ (Or.inr rfl)
        show s.pcs.set i (if ls.length = 0 then Pc.none else .found ls) = _
        rw [if_neg (by simpa using hne)]
    · cases h
  | sorted i ls' =>
    simp only [exec] at h
    split at h
    · rename_i ls hi
      split at h
      · rename_i hp
        cases h
        have hp := List.isPerm_iff.1 hp
        obtain ⟨h1, h2, h3⟩ : Holds s.entries 0 ls ∧ Ends s.entries ls.length ∧ ls ≠ [] := hs.ent i _ hi
        refine move hs hi rfl ?_ rfl (by simp [Pc.owner]) (fun x => ?_)
          ⟨holds_sorted h1 hp.length_eq, ends_sorted h2 hp.length_eq, ?_⟩ (Or.inr rfl)
        · have := hs.len
          have h4 := h1.1
          have := hp.length_eq
          simp; omega
        · simp only [Pc.lines]
          rw [hp.count_eq]
        · intro h0; subst h0
          exact h3 (by simpa using hp.symm)
      · cases h
    · cases h
  | done i =>
    simp only [exec] at h
    split at h
    · rename_i ls hi
      cases h
      obtain ⟨h1, h2, _⟩ : Holds s.entries 0 ls ∧ Ends s.entries ls.length ∧ ls ≠ [] := hs.ent i _ hi
      exact move hs hi rfl hs.len rfl (by simp [Pc.owner]) (fun x => rfl) ⟨h1, by simpa using h2⟩
        (Or.inl rfl)
    · cases h
  | next i =>
    simp only [exec] at h
    split at h
    · rename_i hi
      cases h
      have hlk := (owner_facts hs hi rfl).2
      exact move hs hi rfl hs.len rfl (by simp [Pc.owner, hlk]) (fun x => rfl) trivial (Or.inl rfl)
    · rename_i k ls hi
      obtain ⟨h1, h2⟩ : Holds s.entries k ls ∧ Ends s.entries (k + ls.length) := hs.ent i _ hi
      split at h
      · rename_i hk
        split at h
        · rename_i l hl
          cases h
          cases ls with
          | nil =>
            rcases h2 with h2 | h2
            · simp at h2; omega
            · simp only [List.length_nil, Nat.add_zero] at h2
              rw [h2] at hl; cases hl
          | cons a as =>
            have ha := h1.2 0 (by simp)
            simp only [Nat.add_zero, List.getElem?_cons_zero, Option.map_some] at ha
            rw [ha] at hl
            have : a = l := by simpa using hl
            subst this
            refine move hs hi rfl hs.len rfl (by simp [Pc.owner]) (fun x => ?_)
              ⟨holds_tail h1, ?_⟩ (Or.inl rfl)
            · simp only [bump, Pc.lines, List.tail_cons, List.count_cons]
              by_cases hx : x = a
              · subst hx
                have h3 := hs.locks x
                have h4 : (x :: as).count x ≤ _ :=
                  le_sum_map (fun p : Pc => p.lines.count x) s.pcs _ (List.mem_of_getElem? hi)
                rw [List.count_cons_self] at h4
                rw [if_pos rfl, if_pos (by simp)]
                omega
              · rw [if_neg hx]
                have : (a == x) = false := by simpa using fun h => hx h.symm
                simp [this]
            · simp only [List.length_cons] at h2
              simp only [List.tail_cons]
              rw [show k + 1 + as.length = k + (as.length + 1) by omega]
              exact h2
        · rename_i hl
          cases h
          cases ls with
          | nil =>
            exact move hs hi rfl hs.len rfl (by simp [Pc.owner]) (fun x => rfl) trivial (Or.inl rfl)
          | cons a as =>
            have ha := h1.2 0 (by simp)
            simp only [Nat.add_zero, List.getElem?_cons_zero, Option.map_some] at ha
            exact absurd ha (hl a)
      · rename_i hk
        cases h
        have : ls = [] := by
          have := h1.1
          exact List.length_eq_zero_iff.1 (by omega)
        subst this
        exact move hs hi rfl hs.len rfl (by simp [Pc.owner]) (fun x => rfl) trivial (Or.inl rfl)
    · rename_i hi
      cases h
      obtain ⟨hr, hlk⟩ := owner_facts hs hi rfl
      exact move hs hi rfl hs.len rfl (by simp [Pc.owner, hr, hlk]) (fun x => rfl) trivial (Or.inl rfl)
    · rename_i hi
      cases h
      have hpos := countP_pos_of_get Pc.inside s.pcs i _ hi rfl
      have hc := hs.cnt
      exact move hs hi rfl hs.len (by simp [Pc.inside]; omega) (by simp [Pc.owner]) (fun x => rfl)
        trivial (Or.inl rfl)
    · cases h
  | freeze b =>
    simp only [exec] at h
    cases h
    exact ⟨hs.len, hs.cnt, hs.flag, hs.locks, hs.ent⟩

theorem run_inv {want : Nat} (hwant : cap ≤ want) {s s' : St} {ops : List Op} (hs : Inv s)
    (h : Run want s ops s') : Inv s' := by
  induction h with
  | nil => exact hs
  | snoc _ he ih => exact step_inv hwant ih he

end Verif.LruClean
