import Verif.Model.MetaRaw

namespace Verif.MetaRaw

/-- what `ocf_metadata_ctrl_init` and the layout guarantee. -/
structure Raw.Ok (r : Raw) : Prop where
  pos : 0 < r.entrySize
  le : r.entrySize ≤ pageSize
  lines : r.entries ≤ 2 ^ 32

theorem Raw.Ok.inPage_pos {r : Raw} (h : r.Ok) : 0 < r.inPage :=
  Nat.div_pos h.le h.pos

theorem used_le (r : Raw) : r.used ≤ pageSize := Nat.mul_div_le _ _

theorem Raw.Ok.used_pos {r : Raw} (h : r.Ok) : 0 < r.used := Nat.mul_pos h.pos h.inPage_pos

theorem page_lt {r : Raw} (h : r.Ok) {e : Nat} (he : e < r.entries) : e / r.inPage < r.pages := by
  have hp := h.inPage_pos
  unfold Raw.pages
  rw [Nat.lt_div_iff_mul_lt hp]
  have := Nat.div_mul_le_self e r.inPage
  rw [Nat.mul_comm]
  have h2 : e / r.inPage * r.inPage = r.inPage * (e / r.inPage) := Nat.mul_comm _ _
  omega

theorem firstLine_eq {r : Raw} (h : r.Ok) {k : Nat} (hk : k < r.pages) : r.firstLine k = k * r.inPage := by
  have hp := h.inPage_pos
  unfold Raw.firstLine
  refine Nat.mod_eq_of_lt ?_
  unfold Raw.pages at hk
  rw [Nat.lt_div_iff_mul_lt hp] at hk
  have : r.inPage * k = k * r.inPage := Nat.mul_comm _ _
  have := h.lines
  omega

theorem start_eq {r : Raw} (h : r.Ok) {k : Nat} (hk : k < r.pages) :
    r.addr (r.firstLine k) = r.used * k := by
  rw [firstLine_eq h hk]
  unfold Raw.addr Raw.used
  rw [Nat.mul_comm k, Nat.mul_assoc]

/-- position of an entry: page and offset in the page. -/
theorem addr_split {r : Raw} (e : Nat) :
    r.addr e = r.used * (e / r.inPage) + r.entrySize * (e % r.inPage) := by
  unfold Raw.addr Raw.used
  rw [Nat.mul_assoc, ← Nat.mul_add, Nat.div_add_mod]

theorem off_lt {r : Raw} (h : r.Ok) (e : Nat) {o : Nat} (ho : o < r.entrySize) :
    r.entrySize * (e % r.inPage) + o < r.used := by
  have hm := Nat.mod_lt e h.inPage_pos
  have h1 : r.entrySize * (e % r.inPage + 1) ≤ r.entrySize * r.inPage := Nat.mul_le_mul_left _ hm
  rw [Nat.mul_add, Nat.mul_one] at h1
  unfold Raw.used
  omega

theorem fold_set {b : Nat} (f : Nat → Page) (ps : List Nat) (d : Dev) (k : Nat) :
    (ps.foldl (fun d k => setPage d (b + k) (f k)) d) (b + k) = if k ∈ ps then f k else d (b + k) := by
  induction ps generalizing d with
  | nil => simp
  | cons a ps ih =>
    simp only [List.foldl_cons]
    rw [ih]
    by_cases hk : k ∈ ps
    · simp [hk]
    · by_cases e : k = a
      · subst e
        rw [if_neg hk, if_pos (by simp)]
        simp [setPage]
      · rw [if_neg hk, if_neg (by simp [hk, e])]
        simp [setPage, e]

theorem fold_set_ne {b : Nat} (f : Nat → Page) (ps : List Nat) (d : Dev) (x : Nat)
    (hx : ∀ k ∈ ps, x ≠ b + k) :
    (ps.foldl (fun d k => setPage d (b + k) (f k)) d) x = d x := by
  induction ps generalizing d with
  | nil => rfl
  | cons a ps ih =>
    simp only [List.foldl_cons]
    rw [ih _ (fun k hk => hx k (by simp [hk]))]
    simp [setPage, hx a (by simp)]

theorem drain_get {r : Raw} (h : r.Ok) {k : Nat} (hk : k < r.pages) (mem : Nat → Nat) (p : Page) (a : Nat) :
    drain r mem k p a = if a / r.used = k then p (a % r.used) else mem a := by
  have hu := h.used_pos
  unfold drain
  rw [start_eq h hk]
  have h1 : a / r.used = k ↔ r.used * k ≤ a ∧ a < r.used * k + r.used := by
    rw [Nat.div_eq_iff hu, Nat.mul_comm k]; omega
  by_cases hc : r.used * k ≤ a ∧ a < r.used * k + r.used
  · rw [if_pos hc, if_pos (h1.2 hc)]
    congr 1
    have := Nat.div_add_mod a r.used
    rw [h1.2 hc] at this
    omega
  · rw [if_neg hc, if_neg (fun e => hc (h1.1 e))]

theorem load_get {r : Raw} (h : r.Ok) (src : Nat → Page) (mem : Nat → Nat) (n : Nat) (hn : n ≤ r.pages)
    (a : Nat) : ((List.range n).foldl (fun m k => drain r m k (src k)) mem) a =
      if a / r.used < n then src (a / r.used) (a % r.used) else mem a := by
  induction n with
  | zero => simp
  | succ n ih =>
    rw [List.range_succ, List.foldl_append]
    simp only [List.foldl_cons, List.foldl_nil]
    rw [drain_get h (by omega), ih (by omega)]
    by_cases e : a / r.used = n
    · rw [if_pos e, if_pos (by omega), e]
    · rw [if_neg e]
      by_cases hl : a / r.used < n
      · rw [if_pos hl, if_pos (by omega)]
      · rw [if_neg hl, if_neg (by omega)]

/-! ## dynamic container -/

theorem update_ok {mem : Nat → Bool} {src : Nat → Page} : ∀ {n : Nat} {s : Dyn} {spare : Bool} {page : Nat},
    (Dyn.update mem s spare page src n).2.2 = true → ∀ k,
    ((Dyn.update mem s spare page src n).1.pages k) =
      if page ≤ k ∧ k < page + n then (if isZero (src k) then none else some (src k)) else s.pages k := by
  intro n
  induction n with
  | zero =>
    intro s spare page _ k
    simp only [Dyn.update]
    rw [if_neg (by omega)]
  | succ n ih =>
    intro s spare page h k
    simp only [Dyn.update] at h ⊢
    split at h
    · rename_i hm
      rw [if_pos hm]
      rw [ih h k]
      have h1 : (s.load1 page (src page)).pages k =
          if k = page then (if isZero (src k) then none else some (src k)) else s.pages k := by
        unfold Dyn.load1
        by_cases e : k = page
        · subst e
          rw [if_pos rfl]
          by_cases hz : isZero (src k) = true
          · rw [if_pos hz, if_pos hz]
            cases hp : s.pages k with
            | none => simp [hp]
            | some p => simp [setSlot]
          · rw [if_neg hz, if_neg hz]
            simp [setSlot]
        · rw [if_neg e]
          by_cases hz : isZero (src page) = true
          · rw [if_pos hz]
            cases hp : s.pages page with
            | none => simp
            | some p => simp [setSlot, e]
          · rw [if_neg hz]
            simp [setSlot, e]
      rw [h1]
      by_cases e : k = page
      · subst e
        rw [if_neg (show ¬ (k + 1 ≤ k ∧ k < k + 1 + n) by omega), if_pos rfl,
          if_pos (show k ≤ k ∧ k < k + (n + 1) by omega)]
      · rw [if_neg e]
        by_cases hl : page + 1 ≤ k ∧ k < page + 1 + n
        · rw [if_pos hl, if_pos (show page ≤ k ∧ k < page + (n + 1) by omega)]
        · rw [if_neg hl, if_neg (show ¬ (page ≤ k ∧ k < page + (n + 1)) by omega)]
    · cases h

theorem loadFrom_ok {mem : Nat → Bool} {r : Raw} {d : Dev} {idx : Nat} :
    ∀ {fuel : Nat} {s : Dyn} {spare : Bool} {i : Nat}, r.pages + 1 ≤ i + fuel →
    (Dyn.loadFrom mem r d idx fuel s spare i).2 = true → ∀ k,
    (Dyn.loadFrom mem r d idx fuel s spare i).1.pages k =
      if i ≤ k ∧ k < r.pages then
        (if isZero (d (r.base idx + k)) then none else some (d (r.base idx + k)))
      else s.pages k := by
  intro fuel
  induction fuel with
  | zero => intro s spare i _ h; simp [Dyn.loadFrom] at h
  | succ fuel ih =>
    intro s spare i hf h k
    simp only [Dyn.loadFrom] at h ⊢
    generalize hx : Dyn.update mem s spare i (fun k => d (r.base idx + k)) (min 128 (r.pages - i)) = x at h ⊢
    by_cases hc : (!x.2.2 || decide (r.pages ≤ i + min 128 (r.pages - i))) = true
    · rw [if_pos hc] at h ⊢
      have hu := update_ok (by rw [hx]; exact h) k
      rw [hx] at hu
      rw [hu]
      have hdone : r.pages ≤ i + min 128 (r.pages - i) := by
        simp only [] at h
        rw [h] at hc
        simpa using hc
      have : (i ≤ k ∧ k < i + min 128 (r.pages - i)) ↔ (i ≤ k ∧ k < r.pages) := by omega
      by_cases hk : i ≤ k ∧ k < r.pages
      · rw [if_pos (this.2 hk), if_pos hk]
      · rw [if_neg (fun hh => hk (this.1 hh)), if_neg hk]
    · rw [if_neg hc] at h ⊢
      simp only [Bool.or_eq_true, Bool.not_eq_true', decide_eq_true_eq, not_or] at hc
      have hx2 : x.2.2 = true := by
        cases hb : x.2.2 with
        | true => rfl
        | false => exact absurd hb hc.1
      have hu := update_ok (by rw [hx]; exact hx2) k
      rw [hx] at hu
      rw [ih (by omega) h k, hu]
      by_cases h1 : i + min 128 (r.pages - i) ≤ k ∧ k < r.pages
      · rw [if_pos h1, if_pos (show i ≤ k ∧ k < r.pages by omega)]
      · rw [if_neg h1]
        by_cases h2 : i ≤ k ∧ k < i + min 128 (r.pages - i)
        · rw [if_pos h2, if_pos (show i ≤ k ∧ k < r.pages by omega)]
        · rw [if_neg h2, if_neg (show ¬ (i ≤ k ∧ k < r.pages) by omega)]

theorem update_succeeds {mem : Nat → Bool} {src : Nat → Page} (hm : ∀ k, mem k = true) :
    ∀ {n : Nat} {s : Dyn} {spare : Bool} {page : Nat}, (Dyn.update mem s spare page src n).2.2 = true := by
  intro n
  induction n with
  | zero => intros; rfl
  | succ n ih =>
    intro s spare page
    simp only [Dyn.update, hm, Bool.or_true, if_true]
    exact ih

theorem loadFrom_succeeds {mem : Nat → Bool} (hm : ∀ k, mem k = true) {r : Raw} {d : Dev} {idx : Nat} :
    ∀ {fuel : Nat} {s : Dyn} {spare : Bool} {i : Nat}, r.pages + 1 ≤ i + fuel → 0 < fuel →
    (Dyn.loadFrom mem r d idx fuel s spare i).2 = true := by
  intro fuel
  induction fuel with
  | zero => intro _ _ _ _ h; omega
  | succ fuel ih =>
    intro s spare i hf _
    simp only [Dyn.loadFrom]
    have hu := @update_succeeds mem (fun k => d (r.base idx + k)) hm (min 128 (r.pages - i)) s spare i
    by_cases hc : r.pages ≤ i + min 128 (r.pages - i)
    · rw [if_pos (by simp [hc])]; exact hu
    · rw [if_neg (by simp [hc, hu])]
      exact ih (by omega) (by omega)

theorem isZero_iff {p : Page} : isZero p = true ↔ ∀ o, o < pageSize → p o = 0 := by
  simp [isZero, List.all_eq_true, List.mem_range]

theorem bytes_congr {p q : Page} (h : ∀ o, o < pageSize → p o = q o) : bytes p = bytes q := by
  unfold bytes
  refine List.map_congr_left fun o ho => h o (List.mem_range.1 ho)

end Verif.MetaRaw
