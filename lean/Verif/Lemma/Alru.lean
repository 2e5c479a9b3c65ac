import Verif.Model.Alru
import Verif.Lemma.Collision

/-! Lemmas about the lists of the ALRU cleaning policy. -/

namespace Verif.Alru

open Verif.Collision (upd upd_same upd_ne Chain)

/-- The last element of a list. -/
def lastOf (n : Nat) (xs : List Nat) : Nat := (n :: xs).getLast (by simp)

/-- The pointers of class `p` visit exactly `L p`. -/
structure Rep (a : Lists) (L : Nat → List Nat) : Prop where
  chain : ∀ p, Chain a.n a.next a.prev a.n (a.head p) (L p)
  tail : ∀ p, a.tail p = lastOf a.n (L p)
  size : ∀ p, a.size p = (L p).length
  nodup : ∀ p, (L p).Nodup
  lt : ∀ p c, c ∈ L p → c < a.n
  disj : ∀ p q c, c ∈ L p → c ∈ L q → p = q

theorem lastOf_mem {n : Nat} {xs : List Nat} (h : xs ≠ []) : lastOf n xs ∈ xs := by
  unfold lastOf
  rw [List.getLast_cons h]
  exact List.getLast_mem h

theorem lastOf_append {n : Nat} {xs ys : List Nat} (h : ys ≠ []) :
    lastOf n (xs ++ ys) = lastOf n ys := by
  unfold lastOf
  rw [List.getLast_cons (by simp [h]), List.getLast_cons h, List.getLast_append_of_ne_nil]

theorem Rep.head_eq {a : Lists} {L : Nat → List Nat} (r : Rep a L) (p : Nat) :
    a.head p = (L p).headD a.n := (r.chain p).head

/-- Taking a line out of its list. -/
theorem remove_rep {a : Lists} {L : Nat → List Nat} (r : Rep a L) {p c : Nat} (hc : c ∈ L p) :
    ∃ a', remove a p c = some a' ∧ Rep a' (upd L p ((L p).erase c)) ∧ a'.n = a.n ∧ a'.ts = a.ts ∧
      a'.next c = a.n ∧ a'.prev c = a.n ∧
      ∀ d, d ∉ L p → a'.next d = a.next d ∧ a'.prev d = a.prev d := by
  obtain ⟨x, y, hL⟩ := List.append_of_mem hc
  have hnd := r.nodup p
  have hlt := r.lt p
  have hch := r.chain p
  have htl := r.tail p
  have hsz := r.size p
  rw [hL] at hnd hlt hch htl hsz
  have hcx : c ∉ x := by
    intro h
    rw [List.nodup_append] at hnd
    exact hnd.2.2 _ h _ (by simp) rfl
  have hcy : c ∉ y := by
    rw [List.nodup_append] at hnd
    exact (List.nodup_cons.1 hnd.2.1).1
  have hxy : (x ++ y).Nodup := by
    have := hnd
    grind
  have her : (L p).erase c = x ++ y := by
    rw [hL, List.erase_append_right _ hcx]; simp
  have hcn := hlt c (by simp)
  obtain ⟨hprev, hrest⟩ := Chain.split hch
  have hnext := hrest.head
  have hE := Chain.erase hch hnd (fun h => Nat.lt_irrefl _ (hlt _ h)) hlt hprev
  have hhd := hch.head
  have hhead : a.head p = c ↔ x = [] := by
    cases x with
    | nil => simp [hhd]
    | cons z x => simp [hhd]; intro e; subst e; simp at hcx
  have htail : a.tail p = c ↔ y = [] := by
    rw [htl, lastOf_append (by simp)]
    cases y with
    | nil => simp [lastOf]
    | cons z y =>
      simp only [lastOf, List.getLast_cons_cons, reduceCtorEq, iff_false]
      intro e
      exact hcy (e ▸ List.getLast_mem _)
  -- it is enough to know the pointers of the list after the removal
  have key : ∀ a' : Lists, a'.n = a.n → a'.ts = a.ts → a'.size = upd a.size p (a.size p - 1) →
      a'.next c = a.n → a'.prev c = a.n →
      (∀ d, d ∉ L p → a'.next d = a.next d ∧ a'.prev d = a.prev d) →
      Chain a.n a'.next a'.prev a.n (a'.head p) (x ++ y) → a'.tail p = lastOf a.n (x ++ y) →
      (∀ q, q ≠ p → a'.head q = a.head q ∧ a'.tail q = a.tail q) →
      Rep a' (upd L p ((L p).erase c)) ∧ a'.n = a.n ∧ a'.ts = a.ts ∧
      a'.next c = a.n ∧ a'.prev c = a.n ∧
      ∀ d, d ∉ L p → a'.next d = a.next d ∧ a'.prev d = a.prev d := by
    intro a' h1 h2 h3 h4 h5 h6 h7 h8 h9
    refine ⟨?_, h1, h2, h4, h5, h6⟩
    have hsub : ∀ q d, d ∈ upd L p ((L p).erase c) q → d ∈ L q := by
      intro q d hd
      by_cases hq : q = p
      · subst hq; rw [upd_same] at hd; exact List.mem_of_mem_erase hd
      · rwa [upd_ne hq] at hd
    constructor
    · intro q
      by_cases hq : q = p
      · subst hq; rw [upd_same, her, h1]; exact h7
      · rw [upd_ne hq, h1, (h9 q hq).1]
        exact Chain.frame (r.chain q) fun d hd => h6 d fun h => hq (r.disj _ _ _ hd h)
    · intro q
      by_cases hq : q = p
      · subst hq; rw [upd_same, her, h1]; exact h8
      · rw [upd_ne hq, h1, (h9 q hq).2]; exact r.tail q
    · intro q
      by_cases hq : q = p
      · subst hq; rw [upd_same, her, h3, upd_same, hsz]; simp
      · rw [upd_ne hq, h3, upd_ne hq]; exact r.size q
    · intro q
      by_cases hq : q = p
      · subst hq; rw [upd_same, her]; exact hxy
      · rw [upd_ne hq]; exact r.nodup q
    · intro q d hd; rw [h1]; exact r.lt q d (hsub q d hd)
    · intro q q' d hd hd'; exact r.disj _ _ _ (hsub q d hd) (hsub q' d hd')
  have hmem : ∀ d, d ∉ L p → d ≠ c ∧ d ∉ x ∧ d ∉ y := by
    intro d hd; rw [hL] at hd; simp at hd; exact ⟨hd.2.1, hd.1, hd.2.2⟩
  unfold remove
  rw [if_neg (by simpa using hcn), if_neg (by rw [hsz]; simp)]
  have hnn : ∀ z ∈ x, z ≠ a.n := fun z hz => Nat.ne_of_lt (hlt z (by simp [hz]))
  have hnn' : ∀ z ∈ y, z ≠ a.n := fun z hz => Nat.ne_of_lt (hlt z (by simp [hz]))
  have hg : ¬ (a.next c = a.n ∧ a.prev c = a.n ∧ a.head p ≠ c ∧ a.tail p ≠ c) := by
    rintro ⟨h1, h2, h3, h4⟩
    cases y with
    | nil => exact h4 (htail.2 rfl)
    | cons z y => exact hnn' z (by simp) (by rw [← h1, hnext]; rfl)
  rw [if_neg hg]
  have hprx : x ≠ [] → a.prev c ∈ x := by
    intro h
    rw [hprev, List.getLast_cons h]; exact List.getLast_mem h
  have hnxy : y ≠ [] → a.next c ∈ y := by
    intro h
    rw [hnext]
    cases y with
    | nil => exact absurd rfl h
    | cons z y => simp
  by_cases hx : x = []
  · by_cases hy : y = []
    · simp only [hhead.2 hx, htail.2 hy, and_self, ↓reduceIte, Option.map_some]
      refine ⟨_, rfl, key _ (by rfl) (by rfl) (by rfl) (by exact upd_same _ _ _) (by exact upd_same _ _ _)
        (by exact fun d hd => ⟨upd_ne (hmem d hd).1, upd_ne (hmem d hd).1⟩) ?_ ?_ ?_⟩
      · subst hx hy; exact upd_same _ _ _
      · subst hx hy; exact upd_same _ _ _
      · exact fun q hq => ⟨upd_ne hq, upd_ne hq⟩
    · have hh := hhead.2 hx
      have ht : a.tail p ≠ c := fun h => hy (htail.1 h)
      have hny := hnxy hy
      have hlt' := hlt (a.next c) (by simp [hny])
      simp only [hh, ht, and_false, ne_eq, not_false_eq_true, and_self, ↓reduceIte, hlt',
        not_true_eq_false, Option.map_some]
      have hpc : a.prev c = a.n := by rw [hprev]; subst hx; rfl
      have hcne : c ≠ a.next c := fun h => hcy (h ▸ hny)
      refine ⟨_, rfl, key _ (by rfl) (by rfl) (by rfl) (by exact upd_same _ _ _) ?_ ?_ ?_ ?_ ?_⟩
      · show upd a.prev (a.next c) a.n c = a.n
        rw [upd_ne hcne, hpc]
      · intro d hd
        exact ⟨upd_ne (hmem d hd).1, upd_ne fun h => (hmem d hd).2.2 (h ▸ hny)⟩
      · rw [hpc, if_neg (by simp), if_pos (Nat.ne_of_lt hlt'), if_pos hx] at hE
        show Chain _ _ _ _ (upd a.head p (a.next c) p) _
        rw [upd_same]
        refine Chain.frame hE fun d hd => ⟨upd_ne ?_, rfl⟩
        intro h; subst h; rw [hx] at hd; exact hcy (by simpa using hd)
      · show a.tail p = _
        rw [htl, hx]
        show lastOf a.n ([c] ++ y) = _
        rw [lastOf_append hy]; rfl
      · exact fun q hq => ⟨upd_ne hq, rfl⟩
  · by_cases hy : y = []
    · have ht := htail.2 hy
      have hh : a.head p ≠ c := fun h => hx (hhead.1 h)
      have hpx := hprx hx
      have hlt' := hlt (a.prev c) (by simp [hpx])
      simp only [hh, ht, and_true, ne_eq, not_true_eq_false, not_false_eq_true, and_false, and_self,
        ↓reduceIte, hlt', Option.map_some]
      have hnc : a.next c = a.n := by rw [hnext, hy]; rfl
      have hcne : c ≠ a.prev c := fun h => hcx (h ▸ hpx)
      refine ⟨_, rfl, key _ (by rfl) (by rfl) (by rfl) ?_ (by exact upd_same _ _ _) ?_ ?_ ?_ ?_⟩
      · show upd a.next (a.prev c) a.n c = a.n
        rw [upd_ne hcne, hnc]
      · intro d hd
        exact ⟨upd_ne fun h => (hmem d hd).2.1 (h ▸ hpx), upd_ne (hmem d hd).1⟩
      · rw [hnc, if_pos (Nat.ne_of_lt hlt'), if_neg (by simp), if_neg hx] at hE
        refine Chain.frame hE fun d hd => ⟨rfl, upd_ne ?_⟩
        intro h; subst h; rw [hy] at hd; exact hcx (by simpa using hd)
      · show upd a.tail p (a.prev c) p = _
        rw [upd_same, hprev, hy, List.append_nil]; rfl
      · exact fun q hq => ⟨rfl, upd_ne hq⟩
    · have ht : a.tail p ≠ c := fun h => hy (htail.1 h)
      have hh : a.head p ≠ c := fun h => hx (hhead.1 h)
      have hpx := hprx hx
      have hny := hnxy hy
      have hlt1 := hlt (a.prev c) (by simp [hpx])
      have hlt2 := hlt (a.next c) (by simp [hny])
      simp only [hh, ht, ne_eq, not_false_eq_true, and_false, and_self,
        ↓reduceIte, hlt1, hlt2, not_true_eq_false, Option.map_some]
      refine ⟨_, rfl, key _ (by rfl) (by rfl) (by rfl) (by exact upd_same _ _ _) (by exact upd_same _ _ _) ?_ ?_ ?_ ?_⟩
      · intro d hd
        have := hmem d hd
        have e1 : d ≠ a.prev c := fun h => this.2.1 (h ▸ hpx)
        have e2 : d ≠ a.next c := fun h => this.2.2 (h ▸ hny)
        exact ⟨(upd_ne this.1).trans (upd_ne e1), (upd_ne this.1).trans (upd_ne e2)⟩
      · rw [if_pos (Nat.ne_of_lt hlt1), if_pos (Nat.ne_of_lt hlt2), if_neg hx] at hE
        refine Chain.frame hE fun d hd => ?_
        have hdc : d ≠ c := by
          intro h; subst h; simp at hd; exact hd.elim hcx hcy
        exact ⟨upd_ne hdc, upd_ne hdc⟩
      · show a.tail p = _
        rw [htl, lastOf_append (by simp), lastOf_append hy]
        show lastOf a.n ([c] ++ y) = _
        rw [lastOf_append hy]
      · exact fun q hq => ⟨rfl, rfl⟩

/-- Appending a chain in front of a chain. -/
theorem chain_append {n : Nat} {next prev : Nat → Nat} {ys : List Nat} {hd' : Nat}
    (hys : Chain n next prev n hd' ys) (hyn : ys.Nodup) (hys0 : ys ≠ []) :
    ∀ {xs : List Nat} {p hd : Nat}, Chain n next prev p hd xs → xs ≠ [] → xs.Nodup →
      (∀ c ∈ xs, c ∉ ys) → (∀ c ∈ xs, c < n) →
      Chain n (upd next (xs.getLastD n) hd') (upd prev hd' (xs.getLastD n)) p hd (xs ++ ys) := by
  intro xs
  induction xs with
  | nil => intro p hd _ h; exact absurd rfl h
  | cons x xs ih =>
    intro p hd h _ hn hdis hlt
    obtain ⟨h1, h2, h3⟩ := h
    have hhd := hys.head
    obtain ⟨y, ys, rfl⟩ : ∃ y ys', ys = y :: ys' := by
      cases ys with
      | nil => exact absurd rfl hys0
      | cons y ys => exact ⟨y, ys, rfl⟩
    have hy : hd' = y := hhd
    have hxy : x ≠ hd' := by rw [hy]; intro e; exact hdis x (by simp) (by simp [e])
    refine ⟨h1, by rw [upd_ne hxy]; exact h2, ?_⟩
    by_cases hxs : xs = []
    · subst hxs
      simp only [List.getLastD_cons, List.getLastD_nil, List.nil_append]
      rw [upd_same]
      obtain ⟨g1, g2, g3⟩ := hys
      refine ⟨g1, by rw [g1, upd_same], ?_⟩
      rw [upd_ne (by rw [← hy]; exact Ne.symm hxy)]
      refine Chain.frame g3 fun d hd => ⟨upd_ne ?_, upd_ne ?_⟩
      · intro e; subst e; exact hdis d (by simp) (by simp [hd])
      · intro e; rw [e, hy] at hd; exact (List.nodup_cons.1 hyn).1 hd
    · have e1 : (x :: xs).getLastD n = xs.getLastD n := by
        cases xs with
        | nil => exact absurd rfl hxs
        | cons z xs => simp [List.getLastD_cons]
      rw [e1, upd_ne]
      · exact ih h3 hxs (List.nodup_cons.1 hn).2 (fun c hc => hdis c (by simp [hc]))
          (fun c hc => hlt c (by simp [hc]))
      · intro e
        have hm : xs.getLastD n ∈ xs := by
          rw [List.getLastD_eq_getLast?, List.getLast?_eq_getLast_of_ne_nil hxs]
          exact List.getLast_mem hxs
        exact (List.nodup_cons.1 hn).1 (e ▸ hm)

theorem getLastD_eq {n : Nat} {xs : List Nat} (h : xs ≠ []) : xs.getLastD n = lastOf n xs := by
  unfold lastOf
  rw [List.getLast_cons h, List.getLastD_eq_getLast?, List.getLast?_eq_getLast_of_ne_nil h]
  rfl

/-- Appending a segment `B`, disjoint from the list of class `p`, to its head. -/
theorem append_spec {a : Lists} {p hd tl : Nat} {A B : List Nat}
    (hA : Chain a.n a.next a.prev a.n (a.head p) A) (hAt : a.tail p = lastOf a.n A)
    (hB : Chain a.n a.next a.prev a.n hd B) (hBt : tl = lastOf a.n B)
    (hn : (B ++ A).Nodup) (hlt : ∀ c ∈ B ++ A, c < a.n) :
    ∃ a', append a p hd tl = some a' ∧
      Chain a.n a'.next a'.prev a.n (a'.head p) (B ++ A) ∧ a'.tail p = lastOf a.n (B ++ A) ∧
      a'.n = a.n ∧ a'.ts = a.ts ∧ a'.size = a.size ∧
      (∀ q, q ≠ p → a'.head q = a.head q ∧ a'.tail q = a.tail q) ∧
      ∀ d, d ∉ B ++ A → a'.next d = a.next d ∧ a'.prev d = a.prev d := by
  have hhd := hB.head
  have hhA := hA.head
  unfold append
  by_cases hB0 : B = []
  · subst hB0
    simp only [List.headD_nil] at hhd
    rw [if_pos ⟨hhd, hBt⟩]
    exact ⟨a, rfl, hA, hAt, rfl, rfl, rfl, fun _ _ => ⟨rfl, rfl⟩, fun _ _ => ⟨rfl, rfl⟩⟩
  · have htB : tl ∈ B := hBt ▸ lastOf_mem hB0
    have hhB : hd ∈ B := by
      rw [hhd]
      cases B with
      | nil => exact absurd rfl hB0
      | cons z B => simp
    have h1 : hd ≠ a.n := Nat.ne_of_lt (hlt _ (by simp [hhB]))
    have h2 : tl ≠ a.n := Nat.ne_of_lt (hlt _ (by simp [htB]))
    rw [if_neg (fun h => h1 h.1), if_neg h1, if_neg h2]
    by_cases hA0 : A = []
    · subst hA0
      simp only [List.headD_nil] at hhA
      rw [if_pos hhA]
      refine ⟨_, rfl, ?_, ?_, rfl, rfl, rfl, fun q hq => ⟨upd_ne hq, upd_ne hq⟩,
        fun _ _ => ⟨rfl, rfl⟩⟩
      · show Chain _ _ _ _ (upd a.head p hd p) _
        rw [upd_same, List.append_nil]; exact hB
      · show upd a.tail p tl p = _
        rw [upd_same, List.append_nil]; exact hBt
    · have hhAm : a.head p ∈ A := by
        rw [hhA]
        cases A with
        | nil => exact absurd rfl hA0
        | cons z A => simp
      have h3 : a.head p ≠ a.n := Nat.ne_of_lt (hlt _ (by simp [hhAm]))
      rw [if_neg h3]
      rw [List.nodup_append] at hn
      refine ⟨_, rfl, ?_, ?_, rfl, rfl, rfl, fun q hq => ⟨upd_ne hq, rfl⟩, ?_⟩
      · have := chain_append hA hn.2.1 hA0 hB hB0 hn.1 (fun c hc h => hn.2.2 c hc c h rfl)
          (fun c hc => hlt c (by simp [hc]))
        rw [getLastD_eq hB0, ← hBt] at this
        show Chain _ _ _ _ (upd a.head p hd p) _
        rw [upd_same]; exact this
      · show a.tail p = _
        rw [lastOf_append hA0]; exact hAt
      · intro d hd
        simp only [List.mem_append, not_or] at hd
        exact ⟨upd_ne fun h => hd.1 (h ▸ htB), upd_ne fun h => hd.2 (h ▸ hhAm)⟩

/-- Putting a line on no list at the head. -/
theorem addHead_rep {a : Lists} {L : Nat → List Nat} (r : Rep a L) {p c : Nat} (now : Nat)
    (hc : c < a.n) (hL : ∀ q, c ∉ L q) :
    ∃ a', addHead a p c now = some a' ∧ Rep a' (upd L p (c :: L p)) ∧ a'.n = a.n ∧
      a'.ts = upd a.ts c now ∧
      ∀ d, d ≠ c → d ∉ L p → a'.next d = a.next d ∧ a'.prev d = a.prev d := by
  unfold addHead
  rw [if_neg (by simpa using hc)]
  generalize hb : (Lists.mk a.n a.head a.tail a.size (upd a.next c a.n) (upd a.prev c a.n)
    (upd a.ts c now)) = b
  have hbn : b.n = a.n := by rw [← hb]
  have hbt : b.ts = upd a.ts c now := by rw [← hb]
  have hbs : b.size = a.size := by rw [← hb]
  have hbh : b.head = a.head := by rw [← hb]
  have hbl : b.tail = a.tail := by rw [← hb]
  have hbx : ∀ d, d ≠ c → b.next d = a.next d ∧ b.prev d = a.prev d := by
    intro d hd; rw [← hb]; exact ⟨upd_ne hd, upd_ne hd⟩
  have hbc : b.next c = a.n ∧ b.prev c = a.n := by rw [← hb]; exact ⟨upd_same _ _ _, upd_same _ _ _⟩
  have hch : ∀ q, Chain b.n b.next b.prev b.n (b.head q) (L q) := by
    intro q
    rw [hbn, hbh]
    exact Chain.frame (r.chain q) fun d hd => hbx d fun e => hL q (e ▸ hd)
  obtain ⟨a', h1, h2, h3, h4, h5, h6, h7, h8⟩ := append_spec (a := b) (p := p) (hd := c) (tl := c)
    (A := L p) (B := [c]) (hch p) (by rw [hbl, hbn]; exact r.tail p)
    (by rw [hbn]; exact ⟨rfl, hbc.2, hbc.1⟩) rfl
    (by simpa using ⟨hL p, r.nodup p⟩)
    (by rw [hbn]; intro d hd; simp at hd; rcases hd with rfl | hd; exacts [hc, r.lt p d hd])
  rw [h1]
  refine ⟨_, rfl, ?_, h4.trans hbn, h5.trans hbt, ?_⟩
  · have hmem : ∀ q d, d ∈ upd L p (c :: L p) q → (q = p ∧ d = c) ∨ d ∈ L q := by
      intro q d hd
      by_cases hq : q = p
      · subst hq
        rw [upd_same] at hd
        rcases List.mem_cons.1 hd with h | h
        · exact Or.inl ⟨rfl, h⟩
        · exact Or.inr h
      · rw [upd_ne hq] at hd; exact Or.inr hd
    constructor
    · intro q
      by_cases hq : q = p
      · subst hq
        rw [upd_same]
        show Chain a'.n a'.next a'.prev a'.n (a'.head q) _
        rw [h4]; exact h2
      · rw [upd_ne hq]
        show Chain a'.n a'.next a'.prev a'.n (a'.head q) _
        rw [h4, (h7 q hq).1]
        refine Chain.frame (hch q) fun d hd => h8 d ?_
        simp only [List.singleton_append, List.mem_cons, not_or]
        exact ⟨fun e => hL q (e ▸ hd), fun h => hq (r.disj _ _ _ hd h)⟩
    · intro q
      by_cases hq : q = p
      · subst hq
        rw [upd_same]
        show a'.tail q = lastOf a'.n _
        rw [h4]; exact h3
      · rw [upd_ne hq]
        show a'.tail q = lastOf a'.n _
        rw [h4, (h7 q hq).2, hbl, hbn]; exact r.tail q
    · intro q
      show upd a'.size p (a'.size p + 1) q = _
      by_cases hq : q = p
      · subst hq
        rw [upd_same, upd_same, h6, hbs, r.size]; rfl
      · rw [upd_ne hq, upd_ne hq, h6, hbs, r.size]
    · intro q
      by_cases hq : q = p
      · subst hq
        rw [upd_same]; exact List.nodup_cons.2 ⟨hL q, r.nodup q⟩
      · rw [upd_ne hq]; exact r.nodup q
    · intro q d hd
      show d < a'.n
      rw [h4, hbn]
      rcases hmem q d hd with ⟨_, rfl⟩ | h
      · exact hc
      · exact r.lt q d h
    · intro q q' d hd hd'
      rcases hmem q d hd with ⟨rfl, rfl⟩ | h
      · rcases hmem q' d hd' with ⟨rfl, _⟩ | h'
        · rfl
        · exact absurd h' (hL q')
      · rcases hmem q' d hd' with ⟨rfl, rfl⟩ | h'
        · exact absurd h (hL q)
        · exact r.disj _ _ _ h h'
  · intro d hdc hd
    have := h8 d (by simp [hdc, hd])
    exact ⟨this.1.trans (hbx d hdc).1, this.2.trans (hbx d hdc).2⟩

/-- Touching a line. -/
theorem setHot_rep {a : Lists} {L : Nat → List Nat} (r : Rep a L) {p c : Nat} (now : Nat)
    (hc : c < a.n)
    (hL : c ∈ L p ∨ ((∀ q, c ∉ L q) ∧ a.next c = a.n ∧ a.prev c = a.n)) :
    ∃ a', setHot a p c now = some a' ∧ Rep a' (upd L p (c :: (L p).erase c)) ∧ a'.n = a.n ∧
      a'.ts = upd a.ts c now ∧
      ∀ d, d ≠ c → d ∉ L p → a'.next d = a.next d ∧ a'.prev d = a.prev d := by
  unfold setHot
  rcases hL with hL | ⟨hL, h1, h2⟩
  · have hcond : a.next c ≠ a.n ∨ a.prev c ≠ a.n ∨ (a.head p = c ∧ a.tail p = c) := by
      obtain ⟨x, y, hxy⟩ := List.append_of_mem hL
      have hch := r.chain p
      have htl := r.tail p
      have hlt := r.lt p
      rw [hxy] at hch htl hlt
      obtain ⟨hprev, hrest⟩ := Chain.split hch
      have hnext := hrest.head
      cases y with
      | cons z y =>
        left
        rw [hnext]; exact Nat.ne_of_lt (hlt z (by simp))
      | nil =>
        by_cases hx : x = []
        · right; right
          subst hx
          exact ⟨hch.head, by rw [htl]; rfl⟩
        · right; left
          rw [hprev, List.getLast_cons hx]
          exact Nat.ne_of_lt (hlt _ (by simp [List.getLast_mem hx]))
    rw [if_pos hcond]
    obtain ⟨a1, e1, r1, n1, t1, x1, v1, f1⟩ := remove_rep r hL
    have hnot : ∀ q, c ∉ upd L p ((L p).erase c) q := by
      intro q hq
      by_cases hqp : q = p
      · subst hqp
        rw [upd_same] at hq
        exact (List.Nodup.not_mem_erase (r.nodup q)) hq
      · rw [upd_ne hqp] at hq
        exact hqp (r.disj _ _ _ hq hL)
    obtain ⟨a2, e2, r2, n2, t2, f2⟩ := addHead_rep r1 (p := p) now (n1 ▸ hc) hnot
    rw [e1]
    refine ⟨a2, e2, ?_, n2.trans n1, by rw [t2, t1], ?_⟩
    · have : upd (upd L p ((L p).erase c)) p (c :: upd L p ((L p).erase c) p)
          = upd L p (c :: (L p).erase c) := by
        funext q
        by_cases hq : q = p
        · subst hq; rw [upd_same, upd_same, upd_same]
        · rw [upd_ne hq, upd_ne hq, upd_ne hq]
      rwa [this] at r2
    · intro d hd hdp
      have g1 := f2 d hd (by rw [upd_same]; exact fun h => hdp (List.mem_of_mem_erase h))
      have g2 := f1 d hdp
      exact ⟨g1.1.trans g2.1, g1.2.trans g2.2⟩
  · have hcond : ¬ (a.next c ≠ a.n ∨ a.prev c ≠ a.n ∨ (a.head p = c ∧ a.tail p = c)) := by
      rintro (h | h | ⟨h, _⟩)
      · exact h h1
      · exact h h2
      · rw [r.head_eq] at h
        cases hLp : L p with
        | nil => rw [hLp] at h; simp at h; omega
        | cons z l => rw [hLp] at h; simp at h; subst h; exact hL p (by simp [hLp])
    rw [if_neg hcond, List.erase_of_not_mem (hL p)]
    obtain ⟨a2, e2, r2, n2, t2, f2⟩ := addHead_rep r (p := p) now hc hL
    exact ⟨a2, e2, r2, n2, t2, f2⟩

end Verif.Alru
