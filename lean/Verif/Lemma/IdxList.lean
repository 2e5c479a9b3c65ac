import Verif.Model.IdxList
import Mathlib.Data.List.Perm.Subperm

/-! Lemmas about the index list: the links form a ring through the head entry. -/

namespace Verif.IdxList

theorem upd_same (f : Nat → Nat) (i x : Nat) : upd f i x i = x := by simp [upd]

theorem upd_ne {f : Nat → Nat} {i j x : Nat} (h : j ≠ i) : upd f i x j = f j := by
  simp [upd, h]

/-- From `a` the links visit exactly `xs` and then `b`. -/
def Path (next prev : Nat → Nat) : Nat → List Nat → Nat → Prop
  | a, [], b => next a = b ∧ prev b = a
  | a, x :: xs, b => next a = x ∧ prev x = a ∧ Path next prev x xs b

theorem Path.frame {next prev next' prev' : Nat → Nat} :
    ∀ {xs : List Nat} {a b : Nat}, Path next prev a xs b →
      (∀ x ∈ a :: xs, next' x = next x) → (∀ x ∈ xs ++ [b], prev' x = prev x) →
      Path next' prev' a xs b
  | [], a, b, h, e1, e2 => ⟨(e1 a (by simp)).trans h.1, (e2 b (by simp)).trans h.2⟩
  | x :: xs, a, b, h, e1, e2 => by
    obtain ⟨h1, h2, h3⟩ := h
    refine ⟨(e1 a (by simp)).trans h1, (e2 x (by simp)).trans h2, ?_⟩
    exact Path.frame h3 (fun y hy => e1 y (List.mem_cons_of_mem _ hy))
      (fun y hy => e2 y (List.mem_cons_of_mem _ hy))

theorem Path.next_mem {next prev : Nat → Nat} :
    ∀ {xs : List Nat} {a b : Nat}, Path next prev a xs b → ∀ y ∈ a :: xs, next y ∈ xs ++ [b]
  | [], a, b, h, y, hy => by simp at hy; subst hy; simp [h.1]
  | x :: xs, a, b, h, y, hy => by
    obtain ⟨h1, h2, h3⟩ := h
    rcases List.mem_cons.1 hy with rfl | hy
    · simp [h1]
    · exact List.mem_cons_of_mem _ (Path.next_mem h3 y hy)

theorem Path.prev_mem {next prev : Nat → Nat} :
    ∀ {xs : List Nat} {a b : Nat}, Path next prev a xs b → ∀ y ∈ xs ++ [b], prev y ∈ a :: xs
  | [], a, b, h, y, hy => by simp at hy; subst hy; simp [h.2]
  | x :: xs, a, b, h, y, hy => by
    obtain ⟨h1, h2, h3⟩ := h
    rcases List.mem_cons.1 hy with rfl | hy
    · simp [h2]
    · exact List.mem_cons_of_mem _ (Path.prev_mem h3 y hy)

/-- The entry before and the entry after a cut. -/
theorem Path.cut {next prev : Nat → Nat} {l2 : List Nat} {b : Nat} :
    ∀ {l1 : List Nat} {a : Nat}, Path next prev a (l1 ++ l2) b →
      next ((a :: l1).getLast (by simp)) = l2.headD b ∧
      prev (l2.headD b) = (a :: l1).getLast (by simp)
  | [], a, h => by
    cases l2 with
    | nil => exact h
    | cons y l2 => exact ⟨h.1, h.2.1⟩
  | x :: l1, a, h => by
    have := Path.cut h.2.2
    simpa using this

/-- Linking a new entry in at a cut. -/
theorem Path.link {next prev : Nat → Nat} {l2 : List Nat} {b x : Nat} :
    ∀ {l1 : List Nat} {a : Nat}, Path next prev a (l1 ++ l2) b →
      (a :: (l1 ++ l2)).Nodup → b ∉ l1 ++ l2 → x ∉ a :: (l1 ++ l2) → x ≠ b →
      Path (upd (upd next x (l2.headD b)) ((a :: l1).getLast (by simp)) x)
        (upd (upd prev x ((a :: l1).getLast (by simp))) (l2.headD b) x) a (l1 ++ x :: l2) b
  | [], a, h, hn, hb, hx, hxb => by
    simp only [List.getLast_singleton, List.nil_append]
    have hxa : x ≠ a := fun e => hx (by simp [e])
    cases l2 with
    | nil =>
      simp only [List.headD_nil]
      exact ⟨upd_same _ _ _, by rw [upd_ne hxb, upd_same],
        by rw [upd_ne hxa, upd_same], upd_same _ _ _⟩
    | cons y l2 =>
      obtain ⟨h1, h2, h3⟩ := h
      simp only [List.headD_cons]
      simp only [List.nil_append, List.mem_cons, not_or, List.nodup_cons] at hx hn hb
      refine ⟨upd_same _ _ _, by rw [upd_ne hx.2.1, upd_same], by rw [upd_ne hxa, upd_same],
        upd_same _ _ _, ?_⟩
      refine Path.frame h3 (fun z hz => ?_) (fun z hz => ?_)
      · have hza : z ≠ a := by rintro rfl; rcases List.mem_cons.1 hz with e | e
                               · exact hn.1.1 e
                               · exact hn.1.2 e
        have hzx : z ≠ x := by rintro rfl; rcases List.mem_cons.1 hz with e | e
                               · exact hx.2.1 e
                               · exact hx.2.2 e
        rw [upd_ne hza, upd_ne hzx]
      · have hzy : z ≠ y := by
          rintro rfl; rcases List.mem_append.1 hz with e | e
          · exact hn.2.1 e
          · simp at e; exact hb.1 e.symm
        have hzx : z ≠ x := by
          rintro rfl; rcases List.mem_append.1 hz with e | e
          · exact hx.2.2 e
          · simp at e; exact hxb e
        rw [upd_ne hzy, upd_ne hzx]
  | z :: l1, a, h, hn, hb, hx, hxb => by
    obtain ⟨h1, h2, h3⟩ := h
    have hn' := (List.nodup_cons.1 hn)
    have ih := Path.link (x := x) h3 hn'.2 (fun hm => hb (List.mem_cons_of_mem _ hm))
      (fun hm => hx (List.mem_cons_of_mem _ hm)) hxb
    simp only [List.getLast_cons_cons]
    have hla : (z :: l1).getLast (by simp) ∈ z :: l1 := List.getLast_mem _
    have hmem : (z :: l1).getLast (by simp) ∈ z :: l1 ++ l2 := List.mem_append_left _ hla
    have hax : a ≠ x := fun e => hx (by simp [e])
    have hzx : z ≠ x := fun e => hx (by simp [e])
    refine ⟨?_, ?_, ih⟩
    · rw [upd_ne (fun e => hn'.1 (by rw [e]; exact hmem)), upd_ne hax, h1]
    · have hz : z ≠ l2.headD b := by
        cases l2 with
        | nil => intro e; exact hb (by simp [← show z = b from e])
        | cons y l2 =>
          intro e
          have e : z = y := e
          subst e
          simp at hn
      rw [upd_ne hz, upd_ne hzx, h2]

/-- Unlinking an entry. -/
theorem Path.unlink {next prev : Nat → Nat} {l2 : List Nat} {b x : Nat} :
    ∀ {l1 : List Nat} {a : Nat}, Path next prev a (l1 ++ x :: l2) b →
      (a :: (l1 ++ x :: l2)).Nodup → b ∉ l1 ++ x :: l2 →
      Path (upd next ((a :: l1).getLast (by simp)) (l2.headD b))
        (upd prev (l2.headD b) ((a :: l1).getLast (by simp))) a (l1 ++ l2) b
  | [], a, h, hn, hb => by
    obtain ⟨h1, h2, h3⟩ := h
    simp only [List.getLast_singleton, List.nil_append]
    cases l2 with
    | nil => exact ⟨upd_same _ _ _, upd_same _ _ _⟩
    | cons y l2 =>
      obtain ⟨h4, h5, h6⟩ := h3
      simp only [List.nil_append, List.mem_cons, not_or, List.nodup_cons] at hn hb
      refine ⟨upd_same _ _ _, upd_same _ _ _, Path.frame h6 (fun z hz => ?_) (fun z hz => ?_)⟩
      · refine upd_ne ?_
        rintro rfl
        rcases List.mem_cons.1 hz with e | e
        · exact hn.1.2.1 e
        · exact hn.1.2.2 e
      · refine upd_ne ?_
        rintro rfl
        rcases List.mem_append.1 hz with e | e
        · exact hn.2.2.1 e
        · simp at e; exact hb.2.1 e.symm
  | z :: l1, a, h, hn, hb => by
    obtain ⟨h1, h2, h3⟩ := h
    have hn' := (List.nodup_cons.1 hn)
    have ih := Path.unlink h3 hn'.2 (fun hm => hb (List.mem_cons_of_mem _ hm))
    simp only [List.getLast_cons_cons]
    have hla : (z :: l1).getLast (by simp) ∈ z :: l1 := List.getLast_mem _
    have hmem : (z :: l1).getLast (by simp) ∈ z :: l1 ++ x :: l2 := List.mem_append_left _ hla
    refine ⟨?_, ?_, ih⟩
    · rw [upd_ne (fun e => hn'.1 (by rw [e]; exact hmem)), h1]
    · have hz : z ≠ l2.headD b := by
        cases l2 with
        | nil => intro e; exact hb (by simp [← show z = b from e])
        | cons y l2 =>
          intro e
          have e : z = y := e
          subst e
          simp at hn
      rw [upd_ne hz, h2]

theorem Path.visit {l : Lst} : ∀ {xs : List Nat} {a n : Nat},
    Path l.next l.prev a xs l.inv → (∀ x ∈ xs, x < l.inv) → xs.length < n →
    l.visit n (l.next a) = some xs
  | [], a, n, h, _, hn => by
    obtain ⟨n, rfl⟩ := Nat.exists_eq_succ_of_ne_zero (Nat.ne_of_gt hn)
    simp [Lst.visit, h.1]
  | x :: xs, a, n, h, hlt, hn => by
    obtain ⟨n, rfl⟩ := Nat.exists_eq_succ_of_ne_zero (n := n) (by simp at hn; omega)
    have hx := hlt x (by simp)
    have ih := Path.visit (n := n) h.2.2 (fun y hy => hlt y (by simp [hy])) (by simp at hn; omega)
    rw [h.1, Lst.visit, if_neg (by omega), ih]
    rfl

/-- Links of the list proper: the entries of `xs` are linked in order; flags are down. -/
structure Core (l : Lst) (xs : List Nat) : Prop where
  nodup : xs.Nodup
  lt : ∀ x ∈ xs, x < l.inv
  path : Path l.next l.prev l.inv xs l.inv
  warn : l.warn = false
  bug : l.bug = false
  hang : l.hang = false

/-- The whole container. -/
structure Rep (l : Lst) (xs : List Nat) : Prop extends Core l xs where
  out : ∀ x, x < l.inv → x ∉ xs → l.next x = l.out ∧ l.prev x = l.out

theorem Core.ring {l : Lst} {xs : List Nat} (r : Core l xs) : (l.inv :: xs).Nodup :=
  List.nodup_cons.2 ⟨fun hm => Nat.lt_irrefl _ (r.lt _ hm), r.nodup⟩

theorem Core.le {l : Lst} {xs : List Nat} (r : Core l xs) {x : Nat} (hx : x ∈ l.inv :: xs) :
    x ≤ l.inv := by
  rcases List.mem_cons.1 hx with rfl | h
  · exact Nat.le_refl _
  · exact Nat.le_of_lt (r.lt _ h)

theorem Core.le' {l : Lst} {xs : List Nat} (r : Core l xs) {x : Nat} (hx : x ∈ xs ++ [l.inv]) :
    x ≤ l.inv := r.le (by simpa [or_comm] using hx)

theorem Core.links {l : Lst} {xs : List Nat} (r : Core l xs) {x : Nat} (hx : x ∈ l.inv :: xs) :
    l.next x ≤ l.inv ∧ l.prev x ≤ l.inv :=
  ⟨r.le' (r.path.next_mem x hx),
    r.le (r.path.prev_mem x (by simpa [or_comm] using hx))⟩

theorem get_id {l : Lst} {i : Nat} (h : i ≤ l.inv) : l.get i = l := by
  have : decide (l.inv < i) = false := by simp; omega
  simp [Lst.get, this]

/-- A check that an entry is linked passes. -/
theorem dbg_in {l : Lst} {i : Nat} (h : l.next i ≤ l.inv ∧ l.prev i ≤ l.inv) :
    l.dbg i false = l := by
  have h1 : ¬ (l.next i = l.out ∧ l.prev i = l.out) := by unfold Lst.out; omega
  have h2 : l.next i < l.out ∧ l.prev i < l.out := by unfold Lst.out; omega
  simp [Lst.dbg, Lst.isEntry, Lst.entryBug, h1, h2]

/-- A check that an entry is not linked passes. -/
theorem dbg_out {l : Lst} {i : Nat} (h : l.next i = l.out ∧ l.prev i = l.out) :
    l.dbg i true = l := by
  simp [Lst.dbg, Lst.isEntry, Lst.entryBug, h]

/-- The list with `x` linked between `p` and `n`. -/
def Lst.linked (l : Lst) (p x n : Nat) : Lst :=
  { l with next := upd (upd l.next x n) p x, prev := upd (upd l.prev x p) n x }

theorem Core.linked {l : Lst} {l1 l2 : List Nat} {x : Nat} (r : Core l (l1 ++ l2))
    (hx : x < l.inv) (hxn : x ∉ l1 ++ l2) :
    Core (l.linked ((l.inv :: l1).getLast (by simp)) x (l2.headD l.inv)) (l1 ++ x :: l2) := by
  refine ⟨?_, ?_, ?_, r.warn, r.bug, r.hang⟩
  · have := r.nodup
    rw [List.perm_middle.nodup_iff]
    exact List.nodup_cons.2 ⟨hxn, this⟩
  · intro y hy
    show y < l.inv
    simp only [List.mem_append, List.mem_cons] at hy
    rcases hy with h | rfl | h
    · exact r.lt y (by simp [h])
    · exact hx
    · exact r.lt y (by simp [h])
  · exact r.path.link r.ring (fun hm => Nat.lt_irrefl _ (r.lt _ hm))
      (fun hm => by
        rcases List.mem_cons.1 hm with e | e
        · omega
        · exact hxn e) (by omega)

theorem linked_next {l : Lst} {p x n y : Nat} (h1 : y ≠ x) (h2 : y ≠ p) :
    (l.linked p x n).next y = l.next y := by
  show upd (upd l.next x n) p x y = _
  rw [upd_ne h2, upd_ne h1]

theorem linked_prev {l : Lst} {p x n y : Nat} (h1 : y ≠ x) (h2 : y ≠ n) :
    (l.linked p x n).prev y = l.prev y := by
  show upd (upd l.prev x p) n x y = _
  rw [upd_ne h2, upd_ne h1]

theorem head_mem {l2 : List Nat} {b : Nat} : l2.headD b ∈ l2 ++ [b] := by
  cases l2 <;> simp

theorem last_mem {l1 : List Nat} {a : Nat} : (a :: l1).getLast (by simp) ∈ a :: l1 :=
  List.getLast_mem _

theorem Core.cut_links {l : Lst} {l1 l2 : List Nat} (r : Core l (l1 ++ l2)) :
    l.next ((l.inv :: l1).getLast (by simp)) = l2.headD l.inv ∧
    l.prev (l2.headD l.inv) = (l.inv :: l1).getLast (by simp) := r.path.cut

theorem Core.cut_mem {l : Lst} {l1 l2 : List Nat} (_ : Core l (l1 ++ l2)) :
    (l.inv :: l1).getLast (by simp) ∈ l.inv :: (l1 ++ l2) ∧
    l2.headD l.inv ∈ l.inv :: (l1 ++ l2) := by
  refine ⟨?_, ?_⟩
  · have := last_mem (l1 := l1) (a := l.inv)
    simp only [List.mem_cons, List.mem_append] at this ⊢
    rcases this with h | h
    · exact Or.inl h
    · exact Or.inr (Or.inl h)
  · have := head_mem (l2 := l2) (b := l.inv)
    simp only [List.mem_cons, List.mem_append, List.not_mem_nil, or_false] at this ⊢
    rcases this with h | h
    · exact Or.inr (Or.inr h)
    · exact Or.inl h

/-- `ocf_lst_add` on an unlinked entry. -/
theorem Core.add_eq {l : Lst} {xs : List Nat} {x : Nat} (r : Core l xs) (hx : x < l.inv)
    (ho : l.next x = l.out ∧ l.prev x = l.out) (hxn : x ∉ xs) :
    l.add x = l.linked l.inv x (xs.headD l.inv) := by
  have hc := Core.cut_links (l1 := []) (l2 := xs) r
  have hm := Core.cut_mem (l1 := []) (l2 := xs) r
  simp only [List.getLast_singleton] at hc
  have hn : xs.headD l.inv ≠ x := by
    intro e
    have := hm.2
    rw [e] at this
    rcases List.mem_cons.1 this with h | h
    · omega
    · exact hxn h
  unfold Lst.add
  simp only [hc.1]
  rw [get_id (l := l) (i := x) (by omega), get_id (r.le hm.2), dbg_out ho, dbg_in (r.links hm.2)]
  unfold Lst.linked
  congr 1
  funext y
  unfold upd
  by_cases h1 : y = x
  · rw [if_pos h1, if_neg (by rw [h1]; exact fun e => hn e.symm), if_pos h1]
  · simp [h1]

theorem Core.addTail_eq {l : Lst} {xs : List Nat} {x : Nat} (r : Core l xs) (hx : x < l.inv)
    (ho : l.next x = l.out ∧ l.prev x = l.out) :
    l.addTail x = l.linked ((l.inv :: xs).getLast (by simp)) x l.inv := by
  have r' : Core l (xs ++ []) := by simpa using r
  have hc := Core.cut_links r'
  have hm := Core.cut_mem r'
  simp only [List.headD_nil, List.append_nil] at hc hm
  unfold Lst.addTail
  simp only [hc.2]
  rw [get_id (l := l) (i := x) (by omega), get_id (r.le hm.1), dbg_out ho, dbg_in (r.links hm.1)]
  rfl

theorem Core.addBefore_eq {l : Lst} {l1 l2 : List Nat} {x y : Nat} (r : Core l (l1 ++ y :: l2))
    (hx : x < l.inv) (ho : l.next x = l.out ∧ l.prev x = l.out) :
    l.addBefore y x = l.linked ((l.inv :: l1).getLast (by simp)) x y := by
  have hc := Core.cut_links r
  have hm := Core.cut_mem r
  simp only [List.headD_cons] at hc hm
  unfold Lst.addBefore
  simp only [hc.2]
  rw [get_id (r.le hm.2), get_id (r.le hm.1), get_id (l := l) (i := x) (by omega), dbg_out ho,
    dbg_in (r.links hm.2), dbg_in (r.links hm.1)]
  rfl

theorem Core.addAfter_eq {l : Lst} {l1 l2 : List Nat} {x y : Nat} (r : Core l (l1 ++ y :: l2))
    (hx : x < l.inv) (ho : l.next x = l.out ∧ l.prev x = l.out) :
    l.addAfter y x = l.linked y x (l2.headD l.inv) := by
  have r' : Core l ((l1 ++ [y]) ++ l2) := by simpa using r
  have hc := Core.cut_links r'
  have hm := Core.cut_mem r'
  have hl : (l.inv :: (l1 ++ [y])).getLast (by simp) = y := by simp
  rw [hl] at hc hm
  unfold Lst.addAfter
  simp only [hc.1]
  rw [get_id (r'.le hm.1), get_id (r'.le hm.2), get_id (l := l) (i := x) (by omega), dbg_out ho,
    dbg_in (r'.links hm.1), dbg_in (r'.links hm.2)]
  rfl

/-- Linking keeps other unlinked entries unlinked. -/
theorem Rep.linked {l : Lst} {l1 l2 : List Nat} {x : Nat} (r : Rep l (l1 ++ l2))
    (hx : x < l.inv) (hxn : x ∉ l1 ++ l2) :
    Rep (l.linked ((l.inv :: l1).getLast (by simp)) x (l2.headD l.inv)) (l1 ++ x :: l2) := by
  refine ⟨r.toCore.linked hx hxn, ?_⟩
  intro y hy hyn
  have hyx : y ≠ x := fun e => hyn (by simp [e])
  have hyl : y ∉ l1 ++ l2 := fun hm => hyn (by
    simp only [List.mem_append, List.mem_cons] at hm ⊢; rcases hm with h | h
    · exact Or.inl h
    · exact Or.inr (Or.inr h))
  have hyl' : y ∉ l.inv :: (l1 ++ l2) := fun hm => by
    rcases List.mem_cons.1 hm with h | h
    · have : y < l.inv := hy; omega
    · exact hyl h
  have hm := r.toCore.cut_mem
  rw [linked_next hyx (fun e => hyl' (e ▸ hm.1)), linked_prev hyx (fun e => hyl' (e ▸ hm.2))]
  exact r.out y hy hyl

theorem rep_init (n : Nat) : Rep (init n) [] := by
  refine ⟨⟨List.nodup_nil, by simp, ⟨by simp [init], by simp [init]⟩, rfl, rfl, rfl⟩, ?_⟩
  intro x hx _
  have hx : x < n := hx
  have : x ≠ n := by omega
  simp [init, this, Lst.out]

theorem Rep.add {l : Lst} {xs : List Nat} {x : Nat} (r : Rep l xs) (hx : x < l.inv)
    (hxn : x ∉ xs) : Rep (l.add x) (x :: xs) := by
  rw [r.toCore.add_eq hx (r.out x hx hxn) hxn]
  exact Rep.linked (l1 := []) r hx hxn

theorem Rep.addTail {l : Lst} {xs : List Nat} {x : Nat} (r : Rep l xs) (hx : x < l.inv)
    (hxn : x ∉ xs) : Rep (l.addTail x) (xs ++ [x]) := by
  rw [r.toCore.addTail_eq hx (r.out x hx hxn)]
  exact Rep.linked (l2 := []) (by simpa using r) hx (by simpa using hxn)

theorem Rep.addBefore {l : Lst} {l1 l2 : List Nat} {x y : Nat} (r : Rep l (l1 ++ y :: l2))
    (hx : x < l.inv) (hxn : x ∉ l1 ++ y :: l2) : Rep (l.addBefore y x) (l1 ++ x :: y :: l2) := by
  rw [r.toCore.addBefore_eq hx (r.out x hx hxn)]
  exact Rep.linked (l2 := y :: l2) r hx hxn

theorem Rep.addAfter {l : Lst} {l1 l2 : List Nat} {x y : Nat} (r : Rep l (l1 ++ y :: l2))
    (hx : x < l.inv) (hxn : x ∉ l1 ++ y :: l2) : Rep (l.addAfter y x) (l1 ++ y :: x :: l2) := by
  rw [r.toCore.addAfter_eq hx (r.out x hx hxn)]
  have := Rep.linked (l1 := l1 ++ [y]) (l2 := l2) (by simpa using r) hx (by simpa using hxn)
  simpa using this

/-- The list with the link `p`-`n` closed. -/
def Lst.unlinked (l : Lst) (p n : Nat) : Lst :=
  { l with next := upd l.next p n, prev := upd l.prev n p }

theorem Rep.del {l : Lst} {l1 l2 : List Nat} {x : Nat} (r : Rep l (l1 ++ x :: l2)) :
    Rep (l.del x) (l1 ++ l2) := by
  have hc1 := r.toCore.cut_links
  have r2 : Core l ((l1 ++ [x]) ++ l2) := by simpa using r.toCore
  have hc2 := r2.cut_links
  have hl : (l.inv :: (l1 ++ [x])).getLast (by simp) = x := by simp
  rw [hl] at hc2
  simp only [List.headD_cons] at hc1
  have hm1 := r.toCore.cut_mem
  have hm2 := r2.cut_mem
  rw [hl] at hm2
  have hxi : x < l.inv := r.lt x (by simp)
  have hn := r.nodup
  rw [List.perm_middle.nodup_iff, List.nodup_cons] at hn
  have hpx : (l.inv :: l1).getLast (by simp) ≠ x := by
    intro e
    have := last_mem (l1 := l1) (a := l.inv)
    rw [e] at this
    rcases List.mem_cons.1 this with h | h
    · omega
    · exact hn.1 (List.mem_append_left _ h)
  have hnx : l2.headD l.inv ≠ x := by
    intro e
    have := head_mem (l2 := l2) (b := l.inv)
    rw [e] at this
    rcases List.mem_append.1 this with h | h
    · exact hn.1 (List.mem_append_right _ h)
    · simp at h; omega
  have heq : l.del x =
      (l.unlinked ((l.inv :: l1).getLast (by simp)) (l2.headD l.inv)).initEntry x := by
    unfold Lst.del
    simp only [hc1.2, hc2.1]
    rw [get_id (l := l) (i := x) (by omega), get_id (r2.le hm2.2), get_id (r.toCore.le hm1.1),
      dbg_in (r2.links hm2.1), dbg_in (r2.links hm2.2), dbg_in (r.toCore.links hm1.1)]
    rfl
  rw [heq]
  have hp := r.path.unlink r.toCore.ring (fun hm => Nat.lt_irrefl _ (r.lt _ hm))
  refine ⟨⟨hn.2, ?_, ?_, r.warn, r.bug, r.hang⟩, ?_⟩
  · intro y hy
    exact r.lt y (by
      simp only [List.mem_append, List.mem_cons] at hy ⊢
      rcases hy with h | h
      · exact Or.inl h
      · exact Or.inr (Or.inr h))
  · refine Path.frame hp (fun y hy => upd_ne ?_) (fun y hy => upd_ne ?_)
    · rintro rfl
      rcases List.mem_cons.1 hy with h | h
      · exact Nat.lt_irrefl _ (h ▸ hxi)
      · exact hn.1 h
    · rintro rfl
      rcases List.mem_append.1 hy with h | h
      · exact hn.1 h
      · simp at h; exact Nat.lt_irrefl _ (h ▸ hxi)
  · intro y hy hyn
    by_cases e : y = x
    · subst e; exact ⟨upd_same _ _ _, upd_same _ _ _⟩
    · have hyl : y ∉ l1 ++ x :: l2 := fun hm => hyn (by
        simp only [List.mem_append, List.mem_cons] at hm ⊢
        rcases hm with h | h | h
        · exact Or.inl h
        · exact absurd h e
        · exact Or.inr h)
      have hyi : y ∉ l.inv :: (l1 ++ x :: l2) := fun hm => by
        rcases List.mem_cons.1 hm with h | h
        · have : y < l.inv := hy; omega
        · exact hyl h
      have ho := r.out y hy hyl
      have hm2' : l2.headD l.inv ∈ l.inv :: (l1 ++ x :: l2) := by
        have := hm2.2
        rwa [List.append_assoc] at this
      have hyp : y ≠ (l.inv :: l1).getLast (by simp) := fun e' => hyi (e' ▸ hm1.1)
      have hyq : y ≠ l2.headD l.inv := fun e' => hyi (e' ▸ hm2')
      refine ⟨?_, ?_⟩
      · show upd (upd l.next _ _) x _ y = _
        rw [upd_ne e, upd_ne hyp]; exact ho.1
      · show upd (upd l.prev _ _) x _ y = _
        rw [upd_ne e, upd_ne hyq]; exact ho.2

/-! ### Sorting -/

/-- Insertion of `x` before the first element comparing greater. -/
def insertBy (cmp : Nat → Nat → Int) (x : Nat) : List Nat → List Nat
  | [] => [x]
  | y :: ys => if cmp y x > 0 then x :: y :: ys else y :: insertBy cmp x ys

/-- The place found by the search, as a cut of the list. -/
theorem place_cut {l : Lst} {cmp : Nat → Nat → Int} {x : Nat} :
    ∀ {ys : List Nat} {a n : Nat}, Path l.next l.prev a ys l.inv → (∀ y ∈ ys, y < l.inv) →
      ys.length < n → ∃ l1 l2, ys = l1 ++ l2 ∧ insertBy cmp x ys = l1 ++ x :: l2 ∧
        l.place cmp x n (l.next a) = some (l2.headD l.inv)
  | [], a, n, h, _, hn => by
    obtain ⟨n, rfl⟩ := Nat.exists_eq_succ_of_ne_zero (Nat.ne_of_gt hn)
    exact ⟨[], [], rfl, rfl, by simp [Lst.place, h.1]⟩
  | y :: ys, a, n, h, hlt, hn => by
    obtain ⟨n, rfl⟩ := Nat.exists_eq_succ_of_ne_zero (n := n) (by simp at hn; omega)
    have hy := hlt y (by simp)
    rw [h.1, Lst.place, if_neg (by omega)]
    by_cases hc : cmp y x > 0
    · exact ⟨[], y :: ys, rfl, by simp [insertBy, hc], by simp [hc]⟩
    · obtain ⟨l1, l2, h1, h2, h3⟩ := place_cut (cmp := cmp) (x := x) (n := n) h.2.2
        (fun z hz => hlt z (by simp [hz])) (by simp at hn; omega)
      refine ⟨y :: l1, l2, by simp [h1], by simp [insertBy, hc, h2], ?_⟩
      rw [if_neg hc, h3]

theorem length_le {xs : List Nat} {n : Nat} (hn : xs.Nodup) (hlt : ∀ x ∈ xs, x < n) :
    xs.length ≤ n := by
  have hsub : xs ⊆ List.range n := fun x hx => List.mem_range.2 (hlt x hx)
  simpa using (List.Nodup.subperm hn hsub).length_le

/-- The part of the list not yet sorted is still linked forward. -/
def Fwd (next : Nat → Nat) (inv : Nat) : Nat → List Nat → Prop
  | it, [] => it = inv
  | it, z :: zs => it = z ∧ Fwd next inv (next z) zs

theorem Fwd.frame {next next' : Nat → Nat} {inv : Nat} :
    ∀ {zs : List Nat} {it : Nat}, Fwd next inv it zs → (∀ z ∈ zs, next' z = next z) →
      Fwd next' inv it zs
  | [], _, h, _ => h
  | z :: zs, it, h, e => ⟨h.1, by
      rw [e z (by simp)]
      exact Fwd.frame h.2 (fun y hy => e y (List.mem_cons_of_mem _ hy))⟩

theorem Path.fwd {next prev : Nat → Nat} :
    ∀ {xs : List Nat} {a b : Nat}, Path next prev a xs b → Fwd next b (next a) xs
  | [], _, _, h => h.1
  | _ :: _, _, _, h => ⟨h.1, Path.fwd h.2.2⟩

theorem initEntry_core {l : Lst} {ys : List Nat} {x : Nat} (r : Core l ys) (hx : x < l.inv)
    (hxn : x ∉ ys) : Core (l.initEntry x) ys := by
  refine ⟨r.nodup, r.lt, Path.frame r.path (fun y hy => upd_ne ?_) (fun y hy => upd_ne ?_),
    r.warn, r.bug, r.hang⟩
  · rintro rfl
    rcases List.mem_cons.1 hy with h | h
    · exact Nat.lt_irrefl _ (h ▸ hx)
    · exact hxn h
  · rintro rfl
    rcases List.mem_append.1 hy with h | h
    · exact hxn h
    · simp at h; exact Nat.lt_irrefl _ (h ▸ hx)

/-- One round of the sort inserts one entry and touches nothing outside the sorted part. -/
theorem sortStep_spec {l : Lst} {cmp : Nat → Nat → Int} {ys : List Nat} {x : Nat}
    (r : Core l ys) (hx : x < l.inv) (hxn : x ∉ ys) :
    Core (l.sortStep cmp x) (insertBy cmp x ys) ∧ (l.sortStep cmp x).inv = l.inv ∧
    ∀ z, z ∉ l.inv :: ys → z ≠ x →
      (l.sortStep cmp x).next z = l.next z ∧ (l.sortStep cmp x).prev z = l.prev z := by
  have r1 := initEntry_core r hx hxn
  have ho : (l.initEntry x).next x = (l.initEntry x).out ∧
      (l.initEntry x).prev x = (l.initEntry x).out := ⟨upd_same _ _ _, upd_same _ _ _⟩
  have hframe : ∀ z, z ≠ x → (l.initEntry x).next z = l.next z ∧
      (l.initEntry x).prev z = l.prev z := fun z hz => ⟨upd_ne hz, upd_ne hz⟩
  have hinv : (l.initEntry x).inv = l.inv := rfl
  have key : ∃ l1 l2, ys = l1 ++ l2 ∧ insertBy cmp x ys = l1 ++ x :: l2 ∧
      l.sortStep cmp x = (l.initEntry x).linked ((l.inv :: l1).getLast (by simp)) x
        (l2.headD l.inv) := by
    unfold Lst.sortStep
    simp only []
    revert r1 ho hinv
    generalize l.initEntry x = m
    intro r1 ho hinv
    cases hys : ys with
    | nil =>
      subst hys
      have he : m.empty = true := by simp [Lst.empty, r1.path.1]
      refine ⟨[], [], rfl, rfl, ?_⟩
      rw [if_pos he, r1.add_eq (by omega) ho (by simp)]
      simp [hinv]
    | cons y ys' =>
      rw [hys] at r1
      have he : m.empty = false := by
        simp only [Lst.empty, r1.path.1, decide_eq_false_iff_not]
        have := r1.lt y (by simp)
        omega
      rw [he]
      obtain ⟨l1, l2, h1, h2, h3⟩ := place_cut (cmp := cmp) (x := x) (n := m.inv + 1) r1.path r1.lt
        (by have := length_le r1.nodup r1.lt; omega)
      refine ⟨l1, l2, h1, h2, ?_⟩
      simp only [Bool.false_eq_true, ↓reduceIte, h3]
      cases l2 with
      | nil =>
        simp only [List.headD_nil, ↓reduceIte]
        rw [r1.addTail_eq (by omega) ho]
        simp only [List.append_nil] at h1
        simp only [hinv, h1]
      | cons z l2 =>
        have hz := r1.lt z (by rw [h1]; simp)
        have hne : ¬ (z :: l2).headD m.inv = m.inv := by
          rw [List.headD_cons]; omega
        rw [if_neg hne]
        simp only [List.headD_cons]
        rw [Core.addBefore_eq (h1 ▸ r1) (by omega) ho]
        simp only [hinv]
  obtain ⟨l1, l2, h1, h2, h3⟩ := key
  rw [h3, h2]
  subst h1
  refine ⟨Core.linked r1 hx hxn, rfl, ?_⟩
  intro z hz hzx
  have hm := Core.cut_mem r1
  rw [linked_next hzx (fun e => hz (by have := hm.1; rw [hinv] at this; exact e ▸ this)),
    linked_prev hzx (fun e => hz (by have := hm.2; rw [hinv] at this; exact e ▸ this))]
  exact hframe z hzx

theorem insertBy_perm (cmp : Nat → Nat → Int) (x : Nat) :
    ∀ ys : List Nat, (insertBy cmp x ys).Perm (x :: ys)
  | [] => List.Perm.refl _
  | y :: ys => by
    unfold insertBy
    split
    · exact List.Perm.refl _
    · exact ((insertBy_perm cmp x ys).cons y).trans (List.Perm.swap x y ys)

/-- The result of the sort as a function on sequences. -/
def sorted (cmp : Nat → Nat → Int) (xs : List Nat) : List Nat :=
  xs.foldl (fun ys x => insertBy cmp x ys) []

theorem sortLoop_spec {cmp : Nat → Nat → Int} :
    ∀ {zs : List Nat} {l : Lst} {ys : List Nat} {n it nxt : Nat}, Core l ys →
      (ys ++ zs).Nodup → (∀ z ∈ zs, z < l.inv) → Fwd l.next l.inv it zs →
      (zs ≠ [] → nxt = l.next it) → zs.length < n →
      ∃ l', l.sortLoop cmp n it nxt = l' ∧ l'.inv = l.inv ∧
        Core l' (zs.foldl (fun ys x => insertBy cmp x ys) ys) ∧
        ∀ z, z ≠ l.inv → z ∉ ys → z ∉ zs → l'.next z = l.next z ∧ l'.prev z = l.prev z
  | [], l, ys, n, it, nxt, r, _, _, hf, _, hn => by
    obtain ⟨n, rfl⟩ := Nat.exists_eq_succ_of_ne_zero (Nat.ne_of_gt hn)
    have hf : it = l.inv := hf
    exact ⟨l, by simp [Lst.sortLoop, hf], rfl, r, fun _ _ _ _ => ⟨rfl, rfl⟩⟩
  | z :: zs, l, ys, n, it, nxt, r, hnd, hlt, hf, hnx, hn => by
    obtain ⟨n, rfl⟩ := Nat.exists_eq_succ_of_ne_zero (n := n) (by simp at hn; omega)
    obtain ⟨h1, h2⟩ := hf
    subst h1
    have hnx := hnx (by simp)
    have hz := hlt it (by simp)
    have hnd' := List.perm_middle.nodup_iff.1 hnd
    rw [List.nodup_cons] at hnd'
    have hzy : it ∉ ys := fun hm => hnd'.1 (List.mem_append_left _ hm)
    obtain ⟨r', hi, hfr⟩ := sortStep_spec (cmp := cmp) r hz hzy
    have hzs : ∀ y ∈ zs, y ∉ l.inv :: ys ∧ y ≠ it := by
      intro y hy
      refine ⟨?_, ?_⟩
      · intro hm
        rcases List.mem_cons.1 hm with e | e
        · have := hlt y (by simp [hy]); omega
        · have := hnd'.2
          rw [List.nodup_append] at this
          exact this.2.2 y e y hy rfl
      · rintro rfl; exact hnd'.1 (List.mem_append_right _ hy)
    have hf' : Fwd (l.sortStep cmp it).next l.inv nxt zs := by
      rw [hnx]
      exact Fwd.frame h2 (fun y hy => (hfr y (hzs y hy).1 (hzs y hy).2).1)
    have hnxle : nxt ≤ (l.sortStep cmp it).inv := by
      rw [hi]
      cases zs with
      | nil => exact Nat.le_of_eq hf'
      | cons w zs => rw [hf'.1]; exact Nat.le_of_lt (hlt w (by simp))
    rw [Lst.sortLoop, if_neg (by omega)]
    simp only [get_id hnxle]
    have hnd2 : (insertBy cmp it ys ++ zs).Nodup := by
      refine (((insertBy_perm cmp it ys).append_right zs).nodup_iff).2 ?_
      exact List.nodup_cons.2 hnd'
    obtain ⟨l', e, hi', rc, hfr'⟩ := sortLoop_spec (cmp := cmp) (zs := zs) (n := n) (it := nxt)
      (nxt := (l.sortStep cmp it).next nxt) r' hnd2
      (fun y hy => by rw [hi]; exact hlt y (by simp [hy])) (by rw [hi]; exact hf')
      (fun _ => rfl) (by simp at hn; omega)
    refine ⟨l', e, hi'.trans hi, rc, ?_⟩
    intro y hy hyy hyz
    have hyz' : y ≠ it ∧ y ∉ zs := by simpa using hyz
    have a1 := hfr' y (by rw [hi]; exact hy)
      (fun hm => by
        rcases List.mem_cons.1 ((insertBy_perm cmp it ys).mem_iff.1 hm) with e | e
        · exact hyz'.1 e
        · exact hyy e) hyz'.2
    have a2 := hfr y (fun hm => by
      rcases List.mem_cons.1 hm with e | e
      · exact hy e
      · exact hyy e) hyz'.1
    exact ⟨a1.1.trans a2.1, a1.2.trans a2.2⟩

theorem foldl_perm (cmp : Nat → Nat → Int) :
    ∀ (zs ys : List Nat), (zs.foldl (fun ys x => insertBy cmp x ys) ys).Perm (zs ++ ys)
  | [], _ => List.Perm.refl _
  | z :: zs, ys =>
    (foldl_perm cmp zs _).trans (((insertBy_perm cmp z ys).append_left zs).trans
      List.perm_middle)

theorem sorted_perm (cmp : Nat → Nat → Int) (xs : List Nat) : (sorted cmp xs).Perm xs := by
  unfold sorted; simpa using foldl_perm cmp xs []

theorem Rep.sort {l : Lst} {xs : List Nat} (r : Rep l xs) (cmp : Nat → Nat → Int) :
    Rep (l.sort cmp) (sorted cmp xs) ∧ (l.sort cmp).inv = l.inv := by
  unfold Lst.sort
  cases xs with
  | nil =>
    have he : l.empty = true := by simp [Lst.empty, r.path.1]
    rw [if_pos he]
    exact ⟨r, rfl⟩
  | cons x xs =>
    have hx := r.lt x (by simp)
    have he : l.empty = false := by
      simp only [Lst.empty, r.path.1, decide_eq_false_iff_not]
      omega
    rw [he]
    simp only [Bool.false_eq_true, ↓reduceIte]
    have hn : l.next x ≤ l.inv := (r.toCore.links (x := x) (by simp)).1
    have hfirst : l.next l.inv = x := r.path.1
    rw [hfirst, get_id (Nat.le_of_lt hx), get_id hn]
    have hfwd := r.path.fwd
    rw [hfirst] at hfwd
    have hc : Core { l with next := upd l.next l.inv l.inv, prev := upd l.prev l.inv l.inv } [] :=
      ⟨List.nodup_nil, by simp, ⟨upd_same _ _ _, upd_same _ _ _⟩, r.warn, r.bug, r.hang⟩
    obtain ⟨l', e, hi, rc, hfr⟩ := sortLoop_spec (cmp := cmp) (zs := x :: xs) (n := l.inv + 1)
      (it := x) (nxt := l.next x) hc (by simpa using r.nodup) r.lt
      (Fwd.frame hfwd (fun z hz => upd_ne (by have := r.lt z hz; omega)))
      (fun _ => (upd_ne (by omega)).symm)
      (by have := length_le r.nodup r.lt; omega)
    rw [e]
    refine ⟨⟨rc, ?_⟩, hi⟩
    intro y hy hyn
    have hyn' : y ∉ x :: xs := fun hm => hyn ((sorted_perm cmp _).mem_iff.2 hm)
    have hyi : y < l.inv := by rw [hi] at hy; exact hy
    have h1 := hfr y (by show y ≠ l.inv; omega) (by simp) hyn'
    have h2 := r.out y hyi hyn'
    have hyne : y ≠ l.inv := by omega
    unfold Lst.out
    rw [hi, h1.1, h1.2]
    exact ⟨(upd_ne hyne).trans h2.1, (upd_ne hyne).trans h2.2⟩

end Verif.IdxList
