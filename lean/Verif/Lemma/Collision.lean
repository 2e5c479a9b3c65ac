import Verif.Model.Collision
import Mathlib.Data.List.Perm.Subperm

/-! Lemmas about collision chains: the pointers of a bucket represent a sequence of lines. -/

namespace Verif.Collision

theorem upd_same {α : Type} (f : Nat → α) (i : Nat) (x : α) : upd f i x i = x := by simp [upd]

theorem upd_ne {α : Type} {f : Nat → α} {i j : Nat} {x : α} (h : j ≠ i) : upd f i x j = f j := by
  simp [upd, h]

/-- Starting at `hd`, with predecessor `p`, the pointers visit exactly `xs`. -/
def Chain (N : Nat) (next prev : Nat → Nat) : Nat → Nat → List Nat → Prop
  | _, hd, [] => hd = N
  | p, hd, x :: xs => hd = x ∧ prev x = p ∧ Chain N next prev x (next x) xs

theorem Chain.frame {N : Nat} {next prev next' prev' : Nat → Nat} :
    ∀ {xs : List Nat} {p hd : Nat}, Chain N next prev p hd xs →
      (∀ x ∈ xs, next' x = next x ∧ prev' x = prev x) → Chain N next' prev' p hd xs
  | [], _, _, h, _ => h
  | x :: xs, p, hd, h, e => by
    obtain ⟨h1, h2, h3⟩ := h
    have ex := e x (by simp)
    refine ⟨h1, ex.2.trans h2, ?_⟩
    rw [ex.1]
    exact Chain.frame h3 (fun y hy => e y (by simp [hy]))

/-- The head of a chain. -/
theorem Chain.head {N : Nat} {next prev : Nat → Nat} {p hd : Nat} {xs : List Nat}
    (h : Chain N next prev p hd xs) : hd = xs.headD N := by
  cases xs with
  | nil => exact h
  | cons x xs => exact h.1

/-- Around an element. -/
theorem Chain.split {N : Nat} {next prev : Nat → Nat} {c : Nat} {b : List Nat} :
    ∀ {a : List Nat} {p hd : Nat}, Chain N next prev p hd (a ++ c :: b) →
      prev c = (p :: a).getLast (by simp) ∧ Chain N next prev c (next c) b
  | [], _, _, h => ⟨h.2.1, h.2.2⟩
  | x :: a, p, hd, h => by
    obtain ⟨_, _, h3⟩ := h
    have := Chain.split h3
    refine ⟨this.1.trans ?_, this.2⟩
    simp

/-- Taking an element out of a chain. -/
theorem Chain.erase {N : Nat} {next prev : Nat → Nat} {c : Nat} {b : List Nat} {pr : Nat} :
    ∀ {a : List Nat} {p hd : Nat}, Chain N next prev p hd (a ++ c :: b) →
      (a ++ c :: b).Nodup → p ∉ a ++ c :: b → (∀ x ∈ a ++ c :: b, x < N) →
      pr = (p :: a).getLast (by simp) →
      Chain N (if pr ≠ N then upd next pr (next c) else next)
        (if next c ≠ N then upd prev (next c) pr else prev) p
        (if a = [] then next c else hd) (a ++ b)
  | [], p, hd, h, hn, hp, hN, hpr => by
    obtain ⟨h1, h2, h3⟩ := h
    simp only [List.getLast_singleton] at hpr
    subst hpr
    simp only [↓reduceIte, List.nil_append]
    cases b with
    | nil => exact h3
    | cons y b =>
      obtain ⟨h4, h5, h6⟩ := h3
      have hy : next c ≠ N := by rw [h4]; exact Nat.ne_of_lt (hN y (by simp))
      simp only [List.nil_append, List.nodup_cons, List.mem_cons, not_or] at hn hp
      refine ⟨h4, ?_, ?_⟩
      · rw [if_pos hy, h4, upd_same]
      · have hyn : (if pr ≠ N then upd next pr (next c) else next) y = next y := by
          split
          · exact upd_ne (fun e => hp.2.1 e.symm)
          · rfl
        rw [hyn]
        refine Chain.frame h6 (fun x hx => ?_)
        constructor
        · split
          · exact upd_ne (fun e => hp.2.2 (e ▸ hx))
          · rfl
        · rw [if_pos hy, h4]
          exact upd_ne (fun e => hn.2.1 (e ▸ hx))
  | x :: a, p, hd, h, hn, hp, hN, hpr => by
    obtain ⟨h1, h2, h3⟩ := h
    have hpr' : pr = (x :: a).getLast (by simp) := by simpa using hpr
    have hn' := hn
    simp only [List.cons_append, List.nodup_cons] at hn'
    have ih := Chain.erase (pr := pr) h3 hn'.2 hn'.1 (fun y hy => hN y (List.mem_cons_of_mem _ hy)) hpr'
    simp only [reduceCtorEq, ↓reduceIte, List.cons_append]
    have hb := (Chain.split h3).2.head
    have hxN : x < N := hN x (by simp)
    refine ⟨h1, ?_, ?_⟩
    · split
      · rename_i hne
        rw [← h2]
        refine upd_ne (fun e => ?_)
        rw [hb] at e
        cases b with
        | nil => simp at e; omega
        | cons y b => simp at e; subst e; simp at hn'
      · exact h2
    · have hx : (if pr ≠ N then upd next pr (next c) else next) x
          = if a = [] then next c else next x := by
        by_cases ha : a = []
        · subst ha
          simp at hpr'
          subst hpr'
          rw [if_pos (Nat.ne_of_lt hxN), upd_same]; simp
        · rw [if_neg ha]
          have hne : x ≠ pr := by
            intro e
            rw [hpr', List.getLast_cons ha] at e
            exact hn'.1 (by rw [e]; exact List.mem_append_left _ (List.getLast_mem ha))
          split
          · exact upd_ne hne
          · rfl
      rw [hx]
      exact ih

/-- The table represents the mapping `M`, with the lines of bucket `h` in order `q h`. -/
structure Rep (t : Table) (M : Key → Option Nat) (q : Nat → List Nat) : Prop where
  pos : 0 < t.buckets
  chain : ∀ h, h < t.buckets → Chain t.lines t.next t.prev t.lines (t.hash h) (q h)
  nodup : ∀ h, h < t.buckets → (q h).Nodup
  mem : ∀ h, h < t.buckets → ∀ c,
    c ∈ q h ↔ c < t.lines ∧ hashFunc t (t.core c) = h ∧ M (t.core c) = some c
  core : ∀ k c, M k = some c → c < t.lines ∧ t.core c = k
  valid : ∀ k c, M k = some c → k.1 < coreMax
  free : ∀ c, c < t.lines → M (t.core c) ≠ some c → t.core c = noCore
  bug : t.bug = false

theorem hash_lt (t : Table) (k : Key) (h : 0 < t.buckets) : hashFunc t k < t.buckets :=
  Nat.mod_lt _ h

theorem rep_init (N H : Nat) (h : 0 < H) : Rep (init N H) (fun _ => none) (fun _ => []) :=
  ⟨h, fun _ _ => rfl, fun _ _ => List.nodup_nil, fun _ _ _ => by simp, by simp, by simp,
    fun _ _ _ => rfl, rfl⟩

theorem Rep.own {t : Table} {M : Key → Option Nat} {q : Nat → List Nat} (r : Rep t M q) {h c : Nat}
    (hh : h < t.buckets) (hc : c ∈ q h) : c < t.lines := ((r.mem h hh c).1 hc).1

theorem Rep.disj {t : Table} {M : Key → Option Nat} {q : Nat → List Nat} (r : Rep t M q)
    {h h' c : Nat} (hh : h < t.buckets) (hh' : h' < t.buckets) (hc : c ∈ q h) (hc' : c ∈ q h') :
    h = h' := ((r.mem h hh c).1 hc).2.1.symm.trans ((r.mem h' hh' c).1 hc').2.1

theorem rep_map {t : Table} {M : Key → Option Nat} {q : Nat → List Nat} (r : Rep t M q) {k : Key}
    {c : Nat} (hc : c < t.lines) (hk : k.1 < coreMax) (hM : M k = none)
    (hfree : ∀ k', M k' ≠ some c) :
    Rep (map t k c) (fun k' => if k' = k then some c else M k')
      (fun h => if h = hashFunc t k then c :: q h else q h) := by
  have hh := hash_lt t k r.pos
  have hcq : ∀ h, h < t.buckets → c ∉ q h := fun h hl hm => hfree _ ((r.mem h hl c).1 hm).2.2
  unfold map add
  rw [if_neg (by simp [hh, hc])]
  simp only []
  have hold := (r.chain _ hh).head
  refine ⟨r.pos, ?_, ?_, ?_, ?_, ?_, ?_, r.bug⟩
  · intro h hl
    by_cases e : h = hashFunc t k
    · subst e
      simp only [↓reduceIte]
      refine ⟨upd_same _ _ _, ?_, ?_⟩
      · have hne : c ≠ t.hash (hashFunc t k) := by
          rw [hold]; intro e
          cases hq : q (hashFunc t k) with
          | nil => rw [hq] at e; simp at e; omega
          | cons y b => rw [hq] at e; simp at e; exact hcq _ hh (by rw [hq, e]; simp)
        simp only [ne_eq, ite_not]
        split
        · exact upd_same _ _ _
        · rw [upd_ne hne]; exact upd_same _ _ _
      · show Chain _ _ _ c (upd t.next c _ c) _
        rw [upd_same]
        have hch := r.chain _ hh
        have hnd := r.nodup _ hh
        have hcn := hcq _ hh
        have hlt := fun x hx => r.own (c := x) hh hx
        revert hch hnd hcn hlt hold
        generalize q (hashFunc t k) = xs
        generalize t.hash (hashFunc t k) = hd
        intro hold hch hnd hcn hlt
        cases xs with
        | nil => exact hch
        | cons y b =>
          obtain ⟨h1, h2, h3⟩ := hch
          have hy := hlt y (by simp)
          simp only [List.mem_cons, not_or, List.nodup_cons] at hcn hnd
          refine ⟨h1, ?_, ?_⟩
          · rw [if_pos (by omega), h1, upd_same]
          · rw [upd_ne (fun e => hcn.1 e.symm)]
            refine Chain.frame h3 (fun x hx => ?_)
            have hxc : x ≠ c := fun e => hcn.2 (e ▸ hx)
            refine ⟨upd_ne hxc, ?_⟩
            rw [if_pos (by omega), h1, upd_ne (fun e : x = y => hnd.1 (e ▸ hx)), upd_ne hxc]
    · simp only [if_neg e]
      show Chain _ _ _ _ (upd t.hash _ _ h) _
      rw [upd_ne e]
      refine Chain.frame (r.chain h hl) (fun x hx => ?_)
      have hxc : x ≠ c := fun e => hcq h hl (e ▸ hx)
      refine ⟨upd_ne hxc, ?_⟩
      split
      · rename_i hne
        have hxo : x ≠ t.hash (hashFunc t k) := by
          rw [hold]; intro e'
          cases hq : q (hashFunc t k) with
          | nil => rw [hq] at e'; simp at e'; have := r.own hl hx; omega
          | cons y b =>
            rw [hq] at e'; simp at e'
            exact e (r.disj hl hh hx (by rw [hq, e']; simp))
        rw [upd_ne hxo, upd_ne hxc]
      · exact upd_ne hxc
  · intro h hl
    split
    · exact List.nodup_cons.2 ⟨hcq h hl, r.nodup h hl⟩
    · exact r.nodup h hl
  · intro h hl x
    show _ ↔ x < t.lines ∧ hashFunc t (upd t.core c k x) = h ∧ _
    by_cases e : x = c
    · subst e
      simp only [upd_same, ↓reduceIte, and_true, hc, true_and]
      constructor
      · intro hm
        split at hm
        · rename_i e; exact e.symm
        · exact absurd hm (hcq h hl)
      · intro e; rw [if_pos e.symm]; simp
    · simp only [upd_ne e]
      have : (if t.core x = k then some c else M (t.core x)) = some x ↔ M (t.core x) = some x := by
        split
        · rename_i ek; rw [ek, hM]; simp [Ne.symm e]
        · rfl
      rw [this, ← r.mem h hl x]
      split
      · simp [e]
      · rfl
  · intro k' c' hM'
    split at hM'
    · rename_i e; cases hM'; exact ⟨hc, (upd_same _ _ _).trans e.symm⟩
    · have := r.core _ _ hM'
      refine ⟨this.1, ?_⟩
      show upd t.core c k c' = _
      rw [upd_ne (fun e : c' = c => hfree k' (e ▸ hM'))]
      exact this.2
  · intro k' c' hM'
    split at hM'
    · rename_i e; rw [e]; exact hk
    · exact r.valid _ _ hM'
  · intro x hx hx'
    dsimp only at hx'
    by_cases e : x = c
    · subst e
      exact absurd (by simp [upd_same]) hx'
    · show upd t.core c k x = _
      have hx'' : ¬ (if upd t.core c k x = k then some c else M (upd t.core c k x)) = some x := hx'
      rw [upd_ne e] at hx'' ⊢
      refine r.free x hx (fun hm => hx'' ?_)
      rw [if_neg (fun ek => by rw [ek, hM] at hm; cases hm)]
      exact hm

theorem rep_remove {t : Table} {M : Key → Option Nat} {q : Nat → List Nat} (r : Rep t M q)
    {k : Key} {c : Nat} (hM : M k = some c) :
    Rep (remove t c) (fun k' => if k' = k then none else M k')
      (fun h => if h = hashFunc t k then (q h).erase c else q h) := by
  obtain ⟨hc, hk⟩ := r.core _ _ hM
  have hh := hash_lt t k r.pos
  have hcm : c ∈ q (hashFunc t k) := (r.mem _ hh c).2 ⟨hc, by rw [hk], by rw [hk]; exact hM⟩
  have hcq : ∀ h, h < t.buckets → h ≠ hashFunc t k → c ∉ q h :=
    fun h hl e hm => e (r.disj hl hh hm hcm)
  obtain ⟨a, b, hab⟩ := List.append_of_mem hcm
  have hnd := r.nodup _ hh
  have hch := r.chain _ hh
  have hlt : ∀ x ∈ q (hashFunc t k), x < t.lines := fun x hx => r.own hh hx
  have her : (q (hashFunc t k)).erase c = a ++ b := by
    rw [hab] at hnd ⊢
    rw [List.nodup_append] at hnd
    rw [List.erase_append_right _ (fun hm => hnd.2.2 c hm c (by simp) rfl)]
    simp
  rw [hab] at hch hnd
  have hlt' : ∀ x ∈ a ++ c :: b, x < t.lines := by rw [← hab]; exact hlt
  have hsp := Chain.split hch
  have hpN : t.lines ∉ a ++ c :: b := fun hm => Nat.lt_irrefl _ (hlt' _ hm)
  have hers := Chain.erase hch hnd hpN hlt' hsp.1
  have hcab : c ∉ a ++ b := by
    have := hnd
    simp only [List.nodup_append, List.nodup_cons, List.mem_cons, List.mem_append] at this ⊢
    rintro (h1 | h1)
    · exact this.2.2 c h1 c (Or.inl rfl) rfl
    · exact this.2.1.1 h1
  -- neighbours are in the same bucket, or are the end marker
  have hprev : t.prev c = t.lines ∨ t.prev c ∈ a := by
    rw [hsp.1]
    cases a with
    | nil => left; simp
    | cons x a => right; rw [List.getLast_cons (by simp)]; exact List.getLast_mem _
  have hnext : t.next c = t.lines ∨ t.next c ∈ b := by
    rw [hsp.2.head]
    cases b with
    | nil => left; rfl
    | cons x b => right; simp
  have hhd : t.hash (hashFunc t k) = c ↔ a = [] := by
    have := hch.head
    rw [this]
    cases a with
    | nil => simp
    | cons x a =>
      simp only [List.cons_append, List.headD_cons, reduceCtorEq, iff_false]
      rintro rfl
      simp at hnd
  unfold remove
  rw [if_neg (by simp [hc])]
  simp only [hk]
  rw [if_neg (by simp [hh])]
  refine ⟨r.pos, ?_, ?_, ?_, ?_, ?_, ?_, r.bug⟩
  · intro h hl
    by_cases e : h = hashFunc t k
    · subst e
      simp only [↓reduceIte]
      rw [her]
      have hhash : (if t.hash (hashFunc t k) = c then upd t.hash (hashFunc t k) (t.next c)
          else t.hash) (hashFunc t k) = if a = [] then t.next c else t.hash (hashFunc t k) := by
        by_cases ha : a = []
        · rw [if_pos (hhd.2 ha), if_pos ha, upd_same]
        · rw [if_neg (fun e => ha (hhd.1 e)), if_neg ha]
      rw [hhash]
      refine Chain.frame hers (fun x hx => ?_)
      have hxc : x ≠ c := fun e => hcab (e ▸ hx)
      exact ⟨upd_ne hxc, upd_ne hxc⟩
    · simp only [if_neg e]
      have hhash : (if t.hash (hashFunc t k) = c then upd t.hash (hashFunc t k) (t.next c)
          else t.hash) h = t.hash h := by
        split
        · exact upd_ne e
        · rfl
      rw [hhash]
      refine Chain.frame (r.chain h hl) (fun x hx => ?_)
      have hxc : x ≠ c := fun e' => hcq h hl e (e' ▸ hx)
      have hxab : x ∉ a ++ c :: b := fun hm => e (r.disj hl hh hx (by rw [hab]; exact hm))
      have hxN := r.own hl hx
      constructor
      · show upd _ c _ x = _
        rw [upd_ne hxc]
        split
        · exact upd_ne (fun e' => by
            rcases hprev with h1 | h1
            · omega
            · exact hxab (by rw [e']; simp [h1]))
        · rfl
      · show upd _ c _ x = _
        rw [upd_ne hxc]
        split
        · exact upd_ne (fun e' => by
            rcases hnext with h1 | h1
            · omega
            · exact hxab (by rw [e']; simp [h1]))
        · rfl
  · intro h hl
    split
    · exact (r.nodup h hl).erase c
    · exact r.nodup h hl
  · intro h hl x
    show _ ↔ x < t.lines ∧ hashFunc t (upd t.core c noCore x) = h ∧ _
    by_cases e : x = c
    · subst e
      simp only [upd_same]
      have : ¬ (if noCore = k then none else M noCore) = some x := by
        split
        · simp
        · intro hm; have := r.valid _ _ hm; simp [noCore] at this
      simp only [this, and_false, iff_false]
      split
      · rename_i e; rw [e, her]; exact hcab
      · rename_i e; exact hcq h hl e
    · simp only [upd_ne e]
      have : (if t.core x = k then none else M (t.core x)) = some x ↔ M (t.core x) = some x := by
        split
        · rename_i ek; rw [ek, hM]; simp [Ne.symm e]
        · rfl
      rw [this, ← r.mem h hl x]
      split
      · exact List.mem_erase_of_ne e
      · rfl
  · intro k' c' hM'
    split at hM'
    · cases hM'
    · rename_i ek
      have := r.core _ _ hM'
      refine ⟨this.1, ?_⟩
      show upd t.core c noCore c' = _
      rw [upd_ne (fun e => ek (by rw [← this.2, e, hk]))]
      exact this.2
  · intro k' c' hM'
    split at hM'
    · cases hM'
    · exact r.valid _ _ hM'
  · intro x hx hx'
    show upd t.core c noCore x = _
    by_cases e : x = c
    · rw [e, upd_same]
    · have hx'' : ¬ (if upd t.core c noCore x = k then none else M (upd t.core c noCore x))
        = some x := hx'
      rw [upd_ne e] at hx'' ⊢
      refine r.free x hx (fun hm => hx'' ?_)
      rw [if_neg (fun ek => by rw [ek, hM] at hm; cases hm; exact e rfl)]
      exact hm

/-- Walking a chain finds the first line with the key. -/
theorem walk_chain {t : Table} {k : Key} :
    ∀ {xs : List Nat} {p hd n : Nat}, Chain t.lines t.next t.prev p hd xs →
      (∀ x ∈ xs, x < t.lines) → xs.length < n →
      walk t k n hd = some (xs.find? (fun x => decide (t.core x = k)))
  | [], _, _, n, h, _, hn => by
    obtain ⟨n, rfl⟩ := Nat.exists_eq_succ_of_ne_zero (Nat.ne_of_gt hn)
    have : _ = t.lines := h
    simp [walk, this]
  | x :: xs, p, hd, n, h, hlt, hn => by
    obtain ⟨n, rfl⟩ := Nat.exists_eq_succ_of_ne_zero (n := n) (by simp at hn; omega)
    obtain ⟨h1, h2, h3⟩ := h
    subst h1
    have hx := hlt hd (by simp)
    have ih := walk_chain (k := k) (n := n) h3 (fun y hy => hlt y (by simp [hy]))
      (by simp at hn; omega)
    unfold walk
    rw [if_neg (by omega)]
    have : (k.1 = (t.core hd).1 ∧ (t.core hd).2 = k.2) ↔ t.core hd = k := by
      rw [Prod.ext_iff]; constructor <;> rintro ⟨a, b⟩ <;> exact ⟨a.symm, b⟩
    by_cases e : t.core hd = k
    · rw [if_pos (this.2 e)]; simp [e]
    · rw [if_neg (fun h => e (this.1 h)), ih]; simp [e]

theorem Rep.find {t : Table} {M : Key → Option Nat} {q : Nat → List Nat} (r : Rep t M q)
    (k : Key) : (q (hashFunc t k)).find? (fun x => decide (t.core x = k)) = M k := by
  have hh := hash_lt t k r.pos
  cases hM : M k with
  | none =>
    rw [List.find?_eq_none]
    intro x hx
    simp only [decide_eq_true_eq]
    intro e
    have := ((r.mem _ hh x).1 hx).2.2
    rw [e, hM] at this; cases this
  | some c =>
    obtain ⟨hc, hk⟩ := r.core _ _ hM
    have hcm : c ∈ q (hashFunc t k) := (r.mem _ hh c).2 ⟨hc, by rw [hk], by rw [hk]; exact hM⟩
    cases hf : (q (hashFunc t k)).find? (fun x => decide (t.core x = k)) with
    | none =>
      rw [List.find?_eq_none] at hf
      exact absurd hk (by simpa using hf c hcm)
    | some x =>
      have h1 := List.find?_some hf
      have h2 := List.mem_of_find?_eq_some hf
      simp only [decide_eq_true_eq] at h1
      have := ((r.mem _ hh x).1 h2).2.2
      rw [h1, hM] at this
      exact this.symm

theorem Rep.length {t : Table} {M : Key → Option Nat} {q : Nat → List Nat} (r : Rep t M q)
    {h : Nat} (hl : h < t.buckets) : (q h).length ≤ t.lines := by
  have hsub : (q h) ⊆ List.range t.lines := fun x hx => List.mem_range.2 (r.own hl hx)
  have := List.Nodup.subperm (r.nodup h hl) hsub
  simpa using this.length_le

end Verif.Collision
