import Verif.Model.Nhit
import Verif.Lemma.Collision

/-! Lemmas about the table of tracked core lines. -/

namespace Verif.Nhit

open Verif.Collision (upd upd_same upd_ne Chain Chain.frame Chain.head Chain.split Chain.erase)

/-- Bucket `h` holds the slots `q h`. -/
structure Rep (t : Table) (q : Nat → List Nat) : Prop where
  posH : 0 < t.H
  posN : 0 < t.N
  ptr : t.ptr < t.N
  chain : ∀ h, h < t.H → Chain t.N t.next t.prev t.N (t.map h) (q h)
  nodup : ∀ h, h < t.H → (q h).Nodup
  mem : ∀ h, h < t.H → ∀ c, c ∈ q h ↔ c < t.N ∧ ∃ k, t.key c = some k ∧ hashOf t.H k = h

theorem hash_lt {H : Nat} (k : Key) (h : 0 < H) : hashOf H k < H := Nat.mod_lt _ h

theorem rep_init {N H : Nat} (hN : 0 < N) (hH : 0 < H) : Rep (init N H) (fun _ => []) :=
  ⟨hH, hN, hN, fun _ _ => rfl, fun _ _ => List.nodup_nil, fun _ _ _ => by simp [init]⟩

theorem Rep.own {t : Table} {q : Nat → List Nat} (r : Rep t q) {h c : Nat} (hh : h < t.H) (hc : c ∈ q h) :
    c < t.N := ((r.mem h hh c).1 hc).1

theorem Rep.length {t : Table} {q : Nat → List Nat} (r : Rep t q) {h : Nat} (hl : h < t.H) :
    (q h).length ≤ t.N := by
  have hsub : (q h) ⊆ List.range t.N := fun x hx => List.mem_range.2 (r.own hl hx)
  simpa using (List.Nodup.subperm (r.nodup h hl) hsub).length_le

/-- Changes of counters, validity and pointer do not matter. -/
theorem Rep.frame {t u : Table} {q : Nat → List Nat} (r : Rep t q) (h1 : u.N = t.N) (h2 : u.H = t.H)
    (h3 : u.map = t.map) (h4 : u.key = t.key) (h5 : u.prev = t.prev) (h6 : u.next = t.next) (h7 : u.ptr < t.N) :
    Rep u q := by
  obtain ⟨a, b, c, d, e, f⟩ := r
  exact ⟨h2 ▸ a, h1 ▸ b, h1 ▸ h7, by rw [h1, h2, h3, h5, h6]; exact d, by rw [h2]; exact e,
    by rw [h1, h2, h4]; exact f⟩

theorem walk_chain {t : Table} {k : Key} :
    ∀ {xs : List Nat} {p hd n : Nat}, Chain t.N t.next t.prev p hd xs → (∀ x ∈ xs, x < t.N) → xs.length < n →
      walk t k n hd = some (xs.find? (fun x => decide (t.key x = some k)))
  | [], _, _, n, h, _, hn => by
    obtain ⟨n, rfl⟩ := Nat.exists_eq_succ_of_ne_zero (Nat.ne_of_gt hn)
    have : _ = t.N := h
    simp [walk, this]
  | x :: xs, p, hd, n, h, hlt, hn => by
    obtain ⟨n, rfl⟩ := Nat.exists_eq_succ_of_ne_zero (n := n) (by simp at hn; omega)
    obtain ⟨h1, h2, h3⟩ := h
    subst h1
    have hx := hlt hd (by simp)
    have ih := walk_chain (k := k) (n := n) h3 (fun y hy => hlt y (by simp [hy])) (by simp at hn; omega)
    unfold walk
    rw [if_neg (by omega)]
    by_cases e : t.key hd = some k
    · rw [if_pos e]; simp [e]
    · rw [if_neg e, ih]; simp [e]

/-- The lookup ends. -/
theorem Rep.lookup_ends {t : Table} {q : Nat → List Nat} (r : Rep t q) (k : Key) (n : Nat) (hn : t.N < n) :
    lookup t k n = some (find t k) := by
  have hh := hash_lt k r.posH
  have hl := r.length hh
  have h1 := walk_chain (k := k) (n := n) (r.chain _ hh) (fun x hx => r.own hh hx) (by omega)
  have h2 := walk_chain (k := k) (n := t.N + 1) (r.chain _ hh) (fun x hx => r.own hh hx) (by omega)
  unfold find
  rw [show lookup t k n = _ from h1, show lookup t k (t.N + 1) = _ from h2]
  rfl

theorem Rep.find_eq {t : Table} {q : Nat → List Nat} (r : Rep t q) (k : Key) :
    find t k = (q (hashOf t.H k)).find? (fun x => decide (t.key x = some k)) := by
  have hh := hash_lt k r.posH
  have hl := r.length hh
  have h2 := walk_chain (k := k) (n := t.N + 1) (r.chain _ hh) (fun x hx => r.own hh hx) (by omega)
  unfold find
  rw [show lookup t k (t.N + 1) = _ from h2]
  rfl

theorem Rep.find_some {t : Table} {q : Nat → List Nat} (r : Rep t q) {k : Key} {c : Nat} (h : find t k = some c) :
    c < t.N ∧ t.key c = some k := by
  rw [r.find_eq] at h
  have h1 := List.find?_some h
  have h2 := List.mem_of_find?_eq_some h
  exact ⟨r.own (hash_lt k r.posH) h2, by simpa using h1⟩

theorem Rep.find_none {t : Table} {q : Nat → List Nat} (r : Rep t q) {k : Key} (h : find t k = none) :
    ∀ c, c < t.N → t.key c ≠ some k := by
  rw [r.find_eq, List.find?_eq_none] at h
  intro c hc e
  exact h c ((r.mem _ (hash_lt k r.posH) c).2 ⟨hc, k, e, rfl⟩) (by simpa using e)

theorem rep_remove {t : Table} {q : Nat → List Nat} (r : Rep t q) {c : Nat} (hc : c < t.N) :
    ∃ q', Rep (remove t c) q' := by
  unfold remove
  cases hk : t.key c with
  | none => exact ⟨q, r⟩
  | some k =>
  have hh := hash_lt k r.posH
  have hcm : c ∈ q (hashOf t.H k) := (r.mem _ hh c).2 ⟨hc, k, hk, rfl⟩
  have disj : ∀ h x, h < t.H → x ∈ q h → x ∈ q (hashOf t.H k) → h = hashOf t.H k := by
    intro h x hl h1 h2
    obtain ⟨_, k1, e1, f1⟩ := (r.mem _ hl x).1 h1
    obtain ⟨_, k2, e2, f2⟩ := (r.mem _ hh x).1 h2
    rw [e1] at e2; cases e2; exact f1.symm.trans f2
  have hcq : ∀ h, h < t.H → h ≠ hashOf t.H k → c ∉ q h := fun h hl e hm => e (disj h c hl hm hcm)
  obtain ⟨a, b, hab⟩ := List.append_of_mem hcm
  have hnd := r.nodup _ hh
  have hch := r.chain _ hh
  have hlt : ∀ x ∈ q (hashOf t.H k), x < t.N := fun x hx => r.own hh hx
  have her : (q (hashOf t.H k)).erase c = a ++ b := by
    rw [hab] at hnd ⊢
    rw [List.nodup_append] at hnd
    rw [List.erase_append_right _ (fun hm => hnd.2.2 c hm c (by simp) rfl)]
    simp
  rw [hab] at hch hnd
  have hlt' : ∀ x ∈ a ++ c :: b, x < t.N := by rw [← hab]; exact hlt
  have hsp := Chain.split hch
  have hpN : t.N ∉ a ++ c :: b := fun hm => Nat.lt_irrefl _ (hlt' _ hm)
  have hers := Chain.erase hch hnd hpN hlt' hsp.1
  have hcab : c ∉ a ++ b := by
    have := hnd
    simp only [List.nodup_append, List.nodup_cons, List.mem_cons, List.mem_append] at this ⊢
    rintro (h1 | h1)
    · exact this.2.2 c h1 c (Or.inl rfl) rfl
    · exact this.2.1.1 h1
  have hprev : t.prev c = t.N ∨ t.prev c ∈ a := by
    rw [hsp.1]
    cases a with
    | nil => left; simp
    | cons x a => right; rw [List.getLast_cons (by simp)]; exact List.getLast_mem _
  have hnext : t.next c = t.N ∨ t.next c ∈ b := by
    rw [hsp.2.head]
    cases b with
    | nil => left; rfl
    | cons x b => right; simp
  have hhd : t.map (hashOf t.H k) = c ↔ a = [] := by
    have := hch.head
    rw [this]
    cases a with
    | nil => simp
    | cons x a =>
      simp only [List.cons_append, List.headD_cons, reduceCtorEq, iff_false]
      rintro rfl
      simp at hnd
  refine ⟨fun h => if h = hashOf t.H k then (q h).erase c else q h, r.posH, r.posN, r.ptr, ?_, ?_, ?_⟩
  · intro h hl
    by_cases e : h = hashOf t.H k
    · subst e
      simp only [↓reduceIte]
      rw [her]
      have hhash : (if t.map (hashOf t.H k) = c then upd t.map (hashOf t.H k) (t.next c)
          else t.map) (hashOf t.H k) = if a = [] then t.next c else t.map (hashOf t.H k) := by
        by_cases ha : a = []
        · rw [if_pos (hhd.2 ha), if_pos ha, upd_same]
        · rw [if_neg (fun e => ha (hhd.1 e)), if_neg ha]
      rw [hhash]
      exact hers
    · simp only [if_neg e]
      have hhash : (if t.map (hashOf t.H k) = c then upd t.map (hashOf t.H k) (t.next c)
          else t.map) h = t.map h := by
        split
        · exact upd_ne e
        · rfl
      rw [hhash]
      refine Chain.frame (r.chain h hl) (fun x hx => ?_)
      have hxab : x ∉ a ++ c :: b := fun hm => e (disj h x hl hx (by rw [hab]; exact hm))
      have hxN := r.own hl hx
      constructor
      · split
        · exact upd_ne (fun e' => by
            rcases hprev with h1 | h1
            · omega
            · exact hxab (by rw [e']; simp [h1]))
        · rfl
      · split
        · exact upd_ne (fun e' => by
            rcases hnext with h1 | h1
            · omega
            · exact hxab (by rw [e']; simp [h1]))
        · rfl
  · intro h hl
    split
    · exact (r.nodup h hl).erase c
    · exact r.nodup h hl
  · intro h hl x
    show _ ↔ x < t.N ∧ ∃ k', upd t.key c none x = some k' ∧ hashOf t.H k' = h
    by_cases e : x = c
    · subst e
      simp only [upd_same]
      constructor
      · intro hm
        split at hm
        · rename_i e; rw [e, her] at hm; exact absurd hm hcab
        · rename_i e; exact absurd hm (hcq h hl e)
      · rintro ⟨_, _, h, _⟩; cases h
    · simp only [upd_ne e]
      rw [← r.mem h hl x]
      split
      · exact List.mem_erase_of_ne e
      · rfl

theorem rep_insertNew {t : Table} {q : Nat → List Nat} (r : Rep t q) {c : Nat} (k : Key) (hc : c < t.N)
    (hk : t.key c = none) : ∃ q', Rep (insertNew t c k) q' := by
  have hh := hash_lt k r.posH
  have hcq : ∀ h, h < t.H → c ∉ q h := fun h hl hm => by
    obtain ⟨_, _, e, _⟩ := (r.mem h hl c).1 hm
    rw [hk] at e; cases e
  have disj : ∀ h x, h < t.H → x ∈ q h → x ∈ q (hashOf t.H k) → h = hashOf t.H k := by
    intro h x hl h1 h2
    obtain ⟨_, k1, e1, f1⟩ := (r.mem _ hl x).1 h1
    obtain ⟨_, k2, e2, f2⟩ := (r.mem _ hh x).1 h2
    rw [e1] at e2; cases e2; exact f1.symm.trans f2
  unfold insertNew
  simp only []
  have hold := (r.chain _ hh).head
  refine ⟨fun h => if h = hashOf t.H k then c :: q h else q h, r.posH, r.posN, r.ptr, ?_, ?_, ?_⟩
  · intro h hl
    by_cases e : h = hashOf t.H k
    · subst e
      simp only [↓reduceIte]
      refine ⟨upd_same _ _ _, ?_, ?_⟩
      · have hne : c ≠ t.map (hashOf t.H k) := by
          rw [hold]; intro e
          cases hq : q (hashOf t.H k) with
          | nil => rw [hq] at e; simp at e; omega
          | cons y b => rw [hq] at e; simp at e; exact hcq _ hh (by rw [hq, e]; simp)
        simp only [ne_eq, ite_not]
        split
        · exact upd_same _ _ _
        · rw [upd_ne hne]; exact upd_same _ _ _
      · show Chain _ _ _ c (upd t.next c _ c) _
        rw [upd_same]
        have hch := r.chain _ hh
        have hnd := r.nodup _ hh
        have hcn := hcq _ hh
        have hlt := fun x hx => r.own (c := x) hh hx
        revert hch hnd hcn hlt hold
        generalize q (hashOf t.H k) = xs
        generalize t.map (hashOf t.H k) = hd
        intro hold hch hnd hcn hlt
        cases xs with
        | nil => exact hch
        | cons y b =>
          obtain ⟨h1, h2, h3⟩ := hch
          have hy := hlt y (by simp)
          simp only [List.mem_cons, not_or, List.nodup_cons] at hcn hnd
          refine ⟨h1, ?_, ?_⟩
          · rw [if_pos (by omega), h1, upd_same]
          · rw [upd_ne (fun e => hcn.1 e.symm)]
            refine Chain.frame h3 (fun x hx => ?_)
            have hxc : x ≠ c := fun e => hcn.2 (e ▸ hx)
            refine ⟨upd_ne hxc, ?_⟩
            rw [if_pos (by omega), h1, upd_ne (fun e : x = y => hnd.1 (e ▸ hx)), upd_ne hxc]
    · simp only [if_neg e]
      show Chain _ _ _ _ (upd t.map _ _ h) _
      rw [upd_ne e]
      refine Chain.frame (r.chain h hl) (fun x hx => ?_)
      have hxc : x ≠ c := fun e => hcq h hl (e ▸ hx)
      refine ⟨upd_ne hxc, ?_⟩
      split
      · rename_i hne
        have hxo : x ≠ t.map (hashOf t.H k) := by
          rw [hold]; intro e'
          cases hq : q (hashOf t.H k) with
          | nil => rw [hq] at e'; simp at e'; have := r.own hl hx; omega
          | cons y b =>
            rw [hq] at e'; simp at e'
            exact e (disj h x hl hx (by rw [hq, e']; simp))
        rw [upd_ne hxo, upd_ne hxc]
      · exact upd_ne hxc
  · intro h hl
    split
    · exact List.nodup_cons.2 ⟨hcq h hl, r.nodup h hl⟩
    · exact r.nodup h hl
  · intro h hl x
    show _ ↔ x < t.N ∧ ∃ k', upd t.key c (some k) x = some k' ∧ hashOf t.H k' = h
    by_cases e : x = c
    · subst e
      simp only [upd_same]
      constructor
      · intro hm
        split at hm
        · rename_i e; exact ⟨hc, k, rfl, e.symm⟩
        · exact absurd hm (hcq h hl)
      · rintro ⟨_, _, h1, h2⟩
        cases h1
        rw [if_pos h2.symm]; simp
    · simp only [upd_ne e]
      rw [← r.mem h hl x]
      split
      · simp [e]
      · rfl

/-! What the functions change. -/

theorem remove_key (t : Table) (c x : Nat) : (remove t c).key x = if x = c then none else t.key x := by
  unfold remove
  cases hk : t.key c with
  | none => simp only; split <;> simp_all
  | some k => simp [upd]

theorem remove_same (t : Table) (c : Nat) : (remove t c).N = t.N ∧ (remove t c).H = t.H ∧ (remove t c).cnt = t.cnt ∧
    (remove t c).valid = t.valid ∧ (remove t c).ptr = t.ptr := by
  unfold remove
  cases t.key c <;> exact ⟨rfl, rfl, rfl, rfl, rfl⟩

theorem replace_key (t : Table) (c : Nat) (k : Key) (x : Nat) :
    (replace t c k).key x = if x = c then some k else t.key x := by
  show upd (remove t c).key c (some k) x = _
  unfold upd
  split
  · rfl
  · rename_i e; rw [remove_key, if_neg e]

theorem replace_cnt (t : Table) (c : Nat) (k : Key) (x : Nat) :
    (replace t c k).cnt x = if x = c then 1 else t.cnt x := by
  show upd (remove t c).cnt c 1 x = _
  rw [(remove_same t c).2.2.1]; rfl

theorem replace_same (t : Table) (c : Nat) (k : Key) : (replace t c k).N = t.N ∧ (replace t c k).H = t.H ∧
    (replace t c k).valid = t.valid ∧ (replace t c k).ptr = t.ptr := by
  have := remove_same t c
  exact ⟨this.1, this.2.1, this.2.2.2.1, this.2.2.2.2⟩

theorem rep_replace {t : Table} {q : Nat → List Nat} (r : Rep t q) {c : Nat} (k : Key) (hc : c < t.N) :
    ∃ q', Rep (replace t c k) q' := by
  obtain ⟨q', r'⟩ := rep_remove r hc
  exact rep_insertNew r' k ((remove_same t c).1 ▸ hc) (by rw [remove_key, if_pos rfl])

theorem query_same (t : Table) (k : Key) : (query t k).1.N = t.N ∧ (query t k).1.H = t.H ∧
    (query t k).1.map = t.map ∧ (query t k).1.key = t.key ∧ (query t k).1.prev = t.prev ∧
    (query t k).1.next = t.next ∧ (query t k).1.ptr = t.ptr ∧ (query t k).1.valid = t.valid := by
  unfold query
  cases find t k <;> exact ⟨rfl, rfl, rfl, rfl, rfl, rfl, rfl, rfl⟩

theorem setOcc_same (t : Table) (k : Key) (n : Nat) : (setOcc t k n).N = t.N ∧ (setOcc t k n).H = t.H ∧
    (setOcc t k n).map = t.map ∧ (setOcc t k n).key = t.key ∧ (setOcc t k n).prev = t.prev ∧
    (setOcc t k n).next = t.next ∧ (setOcc t k n).ptr = t.ptr ∧ (setOcc t k n).valid = t.valid := by
  unfold setOcc
  cases find t k <;> exact ⟨rfl, rfl, rfl, rfl, rfl, rfl, rfl, rfl⟩

theorem rep_query {t : Table} {q : Nat → List Nat} (r : Rep t q) (k : Key) : Rep (query t k).1 q := by
  obtain ⟨a, b, c, d, e, f, g, _⟩ := query_same t k
  exact r.frame a b c d e f (g ▸ r.ptr)

theorem rep_setOcc {t : Table} {q : Nat → List Nat} (r : Rep t q) (k : Key) (n : Nat) : Rep (setOcc t k n) q := by
  obtain ⟨a, b, c, d, e, f, g, _⟩ := setOcc_same t k n
  exact r.frame a b c d e f (g ▸ r.ptr)

theorem rep_getSlot {t : Table} {q : Nat → List Nat} (r : Rep t q) : Rep (getSlot t).1 q :=
  r.frame rfl rfl rfl rfl rfl rfl (Nat.mod_lt _ r.posN)

theorem rep_commit {t : Table} {q : Nat → List Nat} (r : Rep t q) (c : Nat) : Rep (commit t c) q :=
  r.frame rfl rfl rfl rfl rfl rfl r.ptr

end Verif.Nhit
