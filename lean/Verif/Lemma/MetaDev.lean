import Verif.Model.MetaDev

namespace Verif.MetaDev

theorem upd_self {α : Type} (f : Nat → α) (i : Nat) (a : α) : upd f i a i = a := by simp [upd]

theorem upd_ne {α : Type} (f : Nat → α) {i x : Nat} (a : α) (h : x ≠ i) : upd f i a x = f x := by
  simp [upd, h]

theorem mem_pages {r : Req} {p : Nat} : p ∈ r.pages ↔ r.first ≤ p ∧ p < r.first + r.count := by
  simp [Req.pages]

/-- may have page `p` locked. -/
def Req.may (r : Req) (p : Nat) : Prop :=
  match r.pc with
  | .lock | .fill _ | .write => True
  | .unlock k _ => r.first + k ≤ p
  | .idle | .done _ => False

/-- surely has page `p` locked. -/
def Req.sure (r : Req) (p : Nat) : Prop :=
  match r.pc with
  | .fill _ | .write => True
  | .unlock k _ => r.first + k ≤ p
  | .idle | .done _ | .lock => False

/-- has page `p` in its buffer. -/
def Req.copied (r : Req) (p : Nat) : Prop :=
  match r.pc with
  | .fill k => p < r.first + k
  | .write => True
  | _ => False

/-- ended or ending with an error. -/
def Req.failed (r : Req) : Prop :=
  match r.pc with
  | .unlock _ ok => ok = false
  | .done ok => ok = false
  | _ => False

structure Inv (s : St) : Prop where
  own : ∀ p i, s.owner p = some i → p ∈ (s.req i).pages ∧ (s.req i).may p
  must : ∀ i p, p ∈ (s.req i).pages → (s.req i).sure p → s.owner p = some i
  le : ∀ p j, s.dev p j ≤ s.mem p
  buf : ∀ i p, p ∈ (s.req i).pages → (s.req i).copied p →
    (∀ j, s.dev p j ≤ (s.req i).buf p) ∧ (s.req i).buf p ≤ s.mem p
  app : ∀ i p j, (s.req i).pc = .write → (p, j) ∈ (s.req i).applied → p ∈ (s.req i).pages ∧
    s.dev p j = (s.req i).buf p
  whole : (∀ i, ¬ (s.req i).failed) → ∀ p, (∀ i, (s.req i).pc = .write → p ∉ (s.req i).pages) →
    ∀ j j', j < spp → j' < spp → s.dev p j = s.dev p j'

theorem init_inv (rs : Nat → Nat × Nat) : Inv (init rs) := by
  constructor <;> simp [init, Req.may, Req.sure, Req.copied]

theorem copied_sure {r : Req} {p : Nat} (h : r.copied p) : r.sure p := by
  unfold Req.copied at h
  unfold Req.sure
  cases hp : r.pc <;> simp_all

/-- two requests never have the same page. -/
theorem excl {s : St} (hs : Inv s) {i i' p : Nat} (h1 : p ∈ (s.req i).pages) (h2 : (s.req i).sure p)
    (h3 : p ∈ (s.req i').pages) (h4 : (s.req i').sure p) : i = i' := by
  have := hs.must i p h1 h2
  have := hs.must i' p h3 h4
  simp_all

/-- a step that only moves one request and leaves locks, memory and device. -/
theorem move {s s' : St} (hs : Inv s) {i : Nat} {r : Req} (hr : s'.req = upd s.req i r)
    (hm : s'.mem = s.mem) (hd : s'.dev = s.dev) (ho : s'.owner = s.owner)
    (hp : r.pages = (s.req i).pages)
    (hmay : ∀ p, s.owner p = some i → (s.req i).may p → r.may p)
    (hsure : ∀ p, p ∈ r.pages → r.sure p → s.owner p = some i)
    (hbuf : ∀ p, p ∈ r.pages → r.copied p → (∀ j, s.dev p j ≤ r.buf p) ∧ r.buf p ≤ s.mem p)
    (happ : r.pc = .write → r.applied = [])
    (hwhole : ¬ r.failed → (s.req i).pc = .write → ∀ p ∈ r.pages,
      ∀ j j', j < spp → j' < spp → s.dev p j = s.dev p j')
    (hf : (s.req i).failed → r.failed) : Inv s' := by
  constructor
  · intro p k h
    rw [ho] at h
    rw [hr]
    by_cases e : k = i
    · subst e
      rw [upd_self, hp]
      exact ⟨(hs.own p _ h).1, hmay p h (hs.own p _ h).2⟩
    · rw [upd_ne _ _ e]
      exact hs.own p k h
  · intro k p
    rw [hr, ho]
    by_cases e : k = i
    · subst e
      rw [upd_self]
      exact hsure p
    · rw [upd_ne _ _ e]
      exact hs.must k p
  · rw [hd, hm]; exact hs.le
  · intro k p
    rw [hr, hd, hm]
    by_cases e : k = i
    · subst e
      rw [upd_self]
      exact hbuf p
    · rw [upd_ne _ _ e]
      exact hs.buf k p
  · intro k p j
    rw [hr, hd]
    by_cases e : k = i
    · subst e
      rw [upd_self]
      intro h1 h2
      rw [happ h1] at h2
      cases h2
    · rw [upd_ne _ _ e]
      exact hs.app k p j
  · intro h1 p h2 j j' hj hj'
    rw [hd]
    have hri := h1 i
    rw [hr, upd_self] at hri
    have hri2 := h2 i
    rw [hr, upd_self] at hri2
    by_cases hw : (s.req i).pc = .write ∧ p ∈ r.pages
    · exact hwhole hri hw.1 p hw.2 j j' hj hj'
    · refine hs.whole (fun k => ?_) p (fun k hk => ?_) j j' hj hj'
      · by_cases e : k = i
        · subst e; exact fun h => hri (hf h)
        · have := h1 k
          rwa [hr, upd_ne _ _ e] at this
      · by_cases e : k = i
        · subst e
          intro hp2
          exact hw ⟨hk, hp ▸ hp2⟩
        · have := h2 k
          rw [hr, upd_ne _ _ e] at this
          exact this hk

theorem step_inv {s s' : St} {o : Op} (hs : Inv s) (h : exec s o = some s') : Inv s' := by
  cases o with
  | change p =>
    simp only [exec] at h
    cases h
    have hle : ∀ q, s.mem q ≤ upd s.mem p (s.mem p + 1) q := by
      intro q
      by_cases e : q = p
      · subst e; rw [upd_self]; omega
      · rw [upd_ne _ _ e]; exact Nat.le_refl _
    exact ⟨hs.own, hs.must, fun q j => Nat.le_trans (hs.le q j) (hle q),
      fun i q h1 h2 => ⟨(hs.buf i q h1 h2).1, Nat.le_trans (hs.buf i q h1 h2).2 (hle q)⟩, hs.app, hs.whole⟩
  | start i =>
    simp only [exec] at h
    split at h
    · rename_i hpc
      cases h
      refine move hs (i := i) rfl rfl rfl rfl rfl ?_ ?_ ?_ ?_ ?_ ?_ <;>
        simp [Req.may, Req.sure, Req.copied, Req.failed, hpc]
    · cases h
  | take i p =>
    simp only [exec] at h
    split at h
    · rename_i hpc hown
      split at h
      · rename_i hp
        cases h
        refine ⟨?_, ?_, hs.le, hs.buf, hs.app, hs.whole⟩
        · intro q k hq
          by_cases e : q = p
          · subst e
            simp only [upd_self, Option.some.injEq] at hq
            subst hq
            exact ⟨hp, by simp [Req.may, hpc]⟩
          · simp only [upd_ne _ _ e] at hq
            exact hs.own q k hq
        · intro k q h1 h2
          have h3 := hs.must k q h1 h2
          by_cases e : q = p
          · subst e; rw [hown] at h3; cases h3
          · simpa only [upd_ne _ _ e] using h3
      · cases h
    · cases h
  | back i p =>
    simp only [exec] at h
    split at h
    · rename_i hpc
      split at h
      · rename_i hown
        cases h
        refine ⟨?_, ?_, hs.le, hs.buf, hs.app, hs.whole⟩
        · intro q k hq
          by_cases e : q = p
          · subst e
            simp only [upd_self] at hq
            cases hq
          · simp only [upd_ne _ _ e] at hq
            exact hs.own q k hq
        · intro k q h1 h2
          have h3 := hs.must k q h1 h2
          by_cases e : q = p
          · subst e
            rw [hown] at h3
            cases h3
            simp [Req.sure, hpc] at h2
          · simpa only [upd_ne _ _ e] using h3
      · cases h
    · cases h
  | fail i =>
    simp only [exec] at h
    split at h
    · rename_i hpc
      split at h
      · rename_i hall
        cases h
        simp only [List.all_eq_true, decide_eq_true_eq] at hall
        refine move hs (i := i) rfl rfl rfl rfl rfl ?_ ?_ ?_ ?_ ?_ ?_
        · intro p hp _
          exact absurd hp (hall p (hs.own p i hp).1)
        all_goals simp [Req.sure, Req.copied, Req.failed, hpc]
      · cases h
    · cases h
  | begin_ i =>
    simp only [exec] at h
    split at h
    · rename_i hpc
      split at h
      · rename_i hall
        cases h
        simp only [List.all_eq_true, decide_eq_true_eq] at hall
        refine move hs (i := i) rfl rfl rfl rfl rfl ?_ ?_ ?_ ?_ ?_ ?_
        · simp [Req.may]
        · intro p hp _
          exact hall p hp
        · intro p hp hc
          have := (mem_pages.1 hp).1
          have hc : p < (s.req i).first + 0 := hc
          have : (s.req i).first ≤ p := this
          omega
        all_goals simp [Req.failed, hpc]
      · cases h
    · cases h
  | copy i =>
    simp only [exec] at h
    split at h
    · rename_i k hpc
      split at h
      · rename_i hk
        cases h
        refine move hs (i := i) rfl rfl rfl rfl rfl ?_ ?_ ?_ ?_ ?_ ?_
        · simp [Req.may]
        · intro p hp _
          exact hs.must i p hp (by simp [Req.sure, hpc])
        · intro p hp hc
          have hp : p ∈ (s.req i).pages := hp
          have hc : p < (s.req i).first + (k + 1) := hc
          show (∀ j, s.dev p j ≤ upd _ _ _ p) ∧ upd _ _ _ p ≤ s.mem p
          by_cases e : p = (s.req i).first + k
          · subst e
            rw [upd_self]
            exact ⟨hs.le _, Nat.le_refl _⟩
          · rw [upd_ne _ _ e]
            exact hs.buf i p hp (by simp only [Req.copied, hpc]; omega)
        all_goals simp [Req.failed, hpc]
      · cases h
    · cases h
  | submit i =>
    simp only [exec] at h
    split at h
    · rename_i k hpc
      split at h
      · cases h
      · rename_i hk
        cases h
        refine move hs (i := i) rfl rfl rfl rfl rfl ?_ ?_ ?_ ?_ ?_ ?_
        · simp [Req.may]
        · intro p hp _
          exact hs.must i p hp (by simp [Req.sure, hpc])
        · intro p hp _
          have hp : p ∈ (s.req i).pages := hp
          have := mem_pages.1 hp
          exact hs.buf i p hp (by simp only [Req.copied, hpc]; omega)
        all_goals simp [Req.failed, hpc]
    · cases h
  | apply i p j =>
    simp only [exec] at h
    split at h
    · rename_i hpc
      split at h
      · rename_i hp
        obtain ⟨hp, hj⟩ := hp
        cases h
        have hsure : (s.req i).sure p := by simp [Req.sure, hpc]
        have hcop : (s.req i).copied p := by simp [Req.copied, hpc]
        have hb := hs.buf i p hp hcop
        -- the new device contents
        have hdev : ∀ q m, upd s.dev p (upd (s.dev p) j ((s.req i).buf p)) q m =
            if q = p ∧ m = j then (s.req i).buf p else s.dev q m := by
          intro q m
          by_cases e : q = p
          · subst e
            rw [upd_self]
            by_cases e2 : m = j
            · subst e2; rw [upd_self]; simp
            · rw [upd_ne _ _ e2]; simp [e2]
          · rw [upd_ne _ _ e]; simp [e]
        have hpcs : ∀ k, (upd s.req i { s.req i with applied := (p, j) :: (s.req i).applied } k).pc =
            (s.req k).pc ∧ (upd s.req i { s.req i with applied := (p, j) :: (s.req i).applied } k).buf =
            (s.req k).buf ∧ (upd s.req i { s.req i with applied := (p, j) :: (s.req i).applied } k).first =
            (s.req k).first ∧ (upd s.req i { s.req i with applied := (p, j) :: (s.req i).applied } k).count =
            (s.req k).count := by
          intro k
          by_cases e : k = i
          · subst e; rw [upd_self]; simp
          · rw [upd_ne _ _ e]; simp
        have hpages : ∀ k, (upd s.req i { s.req i with applied := (p, j) :: (s.req i).applied } k).pages =
            (s.req k).pages := by
          intro k
          unfold Req.pages
          rw [(hpcs k).2.2.1, (hpcs k).2.2.2]
        refine ⟨?_, ?_, ?_, ?_, ?_, ?_⟩
        · intro q k hq
          have := hs.own q k hq
          show q ∈ (upd s.req i _ k).pages ∧ (upd s.req i _ k).may q
          rw [hpages]
          unfold Req.may at this ⊢
          rw [(hpcs k).1, (hpcs k).2.2.1]
          exact this
        · intro k q h1 h2
          replace h1 : q ∈ (upd s.req i _ k).pages := h1
          replace h2 : (upd s.req i _ k).sure q := h2
          rw [hpages] at h1
          refine hs.must k q h1 ?_
          unfold Req.sure at h2 ⊢
          rw [(hpcs k).1, (hpcs k).2.2.1] at h2
          exact h2
        · intro q m
          show upd s.dev p _ q m ≤ s.mem q
          rw [hdev]
          split
          · rename_i e; rw [e.1]; exact hb.2
          · exact hs.le q m
        · intro k q h1 h2
          replace h1 : q ∈ (upd s.req i _ k).pages := h1
          replace h2 : (upd s.req i _ k).copied q := h2
          rw [hpages] at h1
          have h3 : (s.req k).copied q := by
            unfold Req.copied at h2 ⊢
            rw [(hpcs k).1, (hpcs k).2.2.1] at h2
            exact h2
          have hbk := hs.buf k q h1 h3
          show (∀ m, upd s.dev p _ q m ≤ (upd s.req i _ k).buf q) ∧ (upd s.req i _ k).buf q ≤ s.mem q
          rw [(hpcs k).2.1]
          refine ⟨fun m => ?_, hbk.2⟩
          rw [hdev]
          split
          · rename_i e
            obtain ⟨rfl, rfl⟩ := e
            have := excl hs hp hsure h1 (copied_sure h3)
            subst this
            exact Nat.le_refl _
          · exact hbk.1 m
        · intro k q m h1 h2
          replace h1 : (upd s.req i _ k).pc = .write := h1
          replace h2 : (q, m) ∈ (upd s.req i _ k).applied := h2
          show q ∈ (upd s.req i _ k).pages ∧ upd s.dev p _ q m = (upd s.req i _ k).buf q
          rw [(hpcs k).1] at h1
          rw [hpages, (hpcs k).2.1, hdev]
          by_cases e : k = i
          · subst e
            rw [upd_self] at h2
            rcases List.mem_cons.1 h2 with e | h2
            · cases e
              exact ⟨hp, by simp⟩
            · have := hs.app _ q m h1 h2
              refine ⟨this.1, ?_⟩
              split
              · rename_i e; rw [e.1]
              · exact this.2
          · rw [upd_ne _ _ e] at h2
            have := hs.app _ q m h1 h2
            refine ⟨this.1, ?_⟩
            split
            · rename_i e2
              obtain ⟨rfl, rfl⟩ := e2
              exact absurd (excl hs hp hsure this.1 (by simp [Req.sure, h1])).symm e
            · exact this.2
        · intro h1 q h2 m m' hm hm'
          show upd s.dev p _ q m = upd s.dev p _ q m'
          have hqp : q ≠ p := by
            rintro rfl
            have h3 : (upd s.req i _ i).pc = .write → q ∉ (upd s.req i _ i).pages := h2 i
            rw [hpages, (hpcs i).1] at h3
            exact h3 hpc hp
          rw [hdev, hdev]
          simp only [hqp, false_and, if_false]
          refine hs.whole (fun k => ?_) q (fun k hk => ?_) m m' hm hm'
          · have h3 : ¬ (upd s.req i _ k).failed := h1 k
            unfold Req.failed at h3 ⊢
            rw [(hpcs k).1] at h3
            exact h3
          · have h3 : (upd s.req i _ k).pc = .write → q ∉ (upd s.req i _ k).pages := h2 k
            rw [hpages, (hpcs k).1] at h3
            exact h3 hk
      · cases h
    · cases h
  | finish i ok =>
    simp only [exec] at h
    split at h
    · rename_i hpc
      split at h
      · cases h
      · rename_i hall
        cases h
        refine move hs (i := i) rfl rfl rfl rfl rfl ?_ ?_ ?_ ?_ ?_ ?_
        · intro p hp _
          have := mem_pages.1 (hs.own p i hp).1
          simp only [Req.may]; omega
        · intro p hp _
          exact hs.must i p hp (by simp [Req.sure, hpc])
        · simp [Req.copied]
        · simp
        · intro hf _ p hp j j' hj hj'
          have hok : ok = true := by
            cases ok with
            | true => rfl
            | false => simp [Req.failed] at hf
          subst hok
          have hall : ((s.req i).pages.all fun p =>
              (List.range spp).all fun j => decide ((p, j) ∈ (s.req i).applied)) = true := by
            refine Classical.byContradiction fun hc => hall ⟨rfl, hc⟩
          simp only [List.all_eq_true, decide_eq_true_eq, List.mem_range] at hall
          have hp : p ∈ (s.req i).pages := hp
          rw [(hs.app i p j hpc (hall p hp j hj)).2, (hs.app i p j' hpc (hall p hp j' hj')).2]
        · simp [Req.failed, hpc]
    · cases h
  | next i =>
    simp only [exec] at h
    split at h
    · rename_i k ok hpc
      split at h
      · rename_i hk
        cases h
        have hpg : ∀ x, (upd s.req i { s.req i with pc := .unlock (k + 1) ok } x).pages = (s.req x).pages := by
          intro x
          by_cases e : x = i
          · subst e; rw [upd_self]; rfl
          · rw [upd_ne _ _ e]
        have hbuf : ∀ x q, (upd s.req i { s.req i with pc := .unlock (k + 1) ok } x).copied q →
            x ≠ i := by
          rintro x q hc rfl
          rw [upd_self] at hc
          simp [Req.copied] at hc
        refine ⟨?_, ?_, hs.le, ?_, ?_, ?_⟩
        · intro q x hq
          replace hq : upd s.owner ((s.req i).first + k) none q = some x := hq
          show q ∈ (upd s.req i _ x).pages ∧ (upd s.req i _ x).may q
          rw [hpg]
          by_cases e : q = (s.req i).first + k
          · subst e; rw [upd_self] at hq; cases hq
          · rw [upd_ne _ _ e] at hq
            have := hs.own q x hq
            refine ⟨this.1, ?_⟩
            by_cases e2 : x = i
            · subst e2
              rw [upd_self]
              have h2 := this.2
              simp only [Req.may, hpc] at h2 ⊢
              omega
            · rw [upd_ne _ _ e2]; exact this.2
        · intro x q h1 h2
          replace h1 : q ∈ (upd s.req i _ x).pages := h1
          replace h2 : (upd s.req i _ x).sure q := h2
          show upd s.owner _ none q = some x
          rw [hpg] at h1
          by_cases e2 : x = i
          · subst e2
            rw [upd_self] at h2
            simp only [Req.sure] at h2
            rw [upd_ne _ _ (by omega)]
            exact hs.must _ q h1 (by simp only [Req.sure, hpc]; omega)
          · rw [upd_ne _ _ e2] at h2
            have h3 := hs.must x q h1 h2
            have : q ≠ (s.req i).first + k := by
              rintro rfl
              exact e2 (excl hs h1 h2 (mem_pages.2 ⟨by omega, by omega⟩) (by simp [Req.sure, hpc]))
            rw [upd_ne _ _ this]; exact h3
        · intro x q h1 h2
          have e := hbuf x q h2
          replace h1 : q ∈ (upd s.req i _ x).pages := h1
          replace h2 : (upd s.req i _ x).copied q := h2
          show (∀ m, s.dev q m ≤ (upd s.req i _ x).buf q) ∧ (upd s.req i _ x).buf q ≤ s.mem q
          rw [upd_ne _ _ e] at h1 h2 ⊢
          exact hs.buf x q h1 h2
        · intro x q m h1 h2
          replace h1 : (upd s.req i _ x).pc = .write := h1
          replace h2 : (q, m) ∈ (upd s.req i _ x).applied := h2
          have e : x ≠ i := by
            rintro rfl
            rw [upd_self] at h1
            cases h1
          show q ∈ (upd s.req i _ x).pages ∧ s.dev q m = (upd s.req i _ x).buf q
          rw [upd_ne _ _ e] at h1 h2 ⊢
          exact hs.app x q m h1 h2
        · intro h1 q h2 m m' hm hm'
          refine hs.whole (fun x => ?_) q (fun x hx => ?_) m m' hm hm'
          · have h3 : ¬ (upd s.req i _ x).failed := h1 x
            by_cases e : x = i
            · subst e
              rw [upd_self] at h3
              simpa only [Req.failed, hpc] using h3
            · rwa [upd_ne _ _ e] at h3
          · have h3 : (upd s.req i _ x).pc = .write → q ∉ (upd s.req i _ x).pages := h2 x
            have e : x ≠ i := by
              rintro rfl
              rw [hpc] at hx; cases hx
            rw [upd_ne _ _ e] at h3
            exact h3 hx
      · rename_i hk
        cases h
        refine move hs (i := i) rfl rfl rfl rfl rfl ?_ ?_ ?_ ?_ ?_ ?_
        · intro p hp hmay
          have h1 := mem_pages.1 (hs.own p i hp).1
          simp only [Req.may, hpc] at hmay
          omega
        · simp [Req.sure]
        · simp [Req.copied]
        · simp
        · simp [hpc]
        · simp [Req.failed, hpc]
    · cases h

theorem run_inv {s s' : St} {ops : List Op} (hs : Inv s) (h : Run s ops s') : Inv s' := by
  induction h with
  | nil => exact hs
  | snoc _ he ih => exact step_inv ih he

end Verif.MetaDev
