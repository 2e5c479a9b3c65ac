import Verif.Lemma.Alru
import Mathlib.Data.List.Nodup

/-! Lemmas about filling the ALRU lists. -/

namespace Verif.Alru

open Verif.Collision (upd upd_same upd_ne Chain)

/-- The line belongs to the list of class `p`. -/
def want (l : Lines) (p c : Nat) : Bool := l.mapped c && l.dirty c && (l.part c == p)

/-- The pointers of shard `s` and class `p` visit exactly `M s p`. -/
structure Seg (l : Lines) (a : Lists) (h : Shards) (M : Nat → Nat → List Nat) : Prop where
  chain : ∀ s p, Chain a.n a.next a.prev a.n (h.head s p) (M s p)
  tail : ∀ s p, h.tail s p = lastOf a.n (M s p)
  nodup : ∀ s p, (M s p).Nodup
  lt : ∀ s p c, c ∈ M s p → c < a.n
  want : ∀ s p c, c ∈ M s p → want l p c = true
  disj : ∀ s p s' p' c, c ∈ M s p → c ∈ M s' p' → s = s'

theorem want_part {l : Lines} {p q c : Nat} (h : want l p c = true) (h' : want l q c = true) :
    p = q := by
  unfold want at h h'
  simp at h h'
  omega

theorem upd2_same (f : Nat → Nat → Nat) (i j v : Nat) : upd2 f i j v i j = v := by
  unfold upd2; rw [upd_same, upd_same]

theorem upd2_ne {f : Nat → Nat → Nat} {i j v i' j' : Nat} (h : ¬ (i' = i ∧ j' = j)) :
    upd2 f i j v i' j' = f i' j' := by
  unfold upd2
  by_cases hi : i' = i
  · subst hi; rw [upd_same, upd_ne (fun e => h ⟨rfl, e⟩)]
  · rw [upd_ne hi]

theorem lastOf_cons {n c : Nat} {xs : List Nat} (h : xs ≠ []) : lastOf n (c :: xs) = lastOf n xs := by
  show lastOf n ([c] ++ xs) = _
  exact lastOf_append h

/-- One line put on the list of a shard. -/
theorem addPopulate_seg {l : Lines} {a : Lists} {h : Shards} {M : Nat → Nat → List Nat}
    (r : Seg l a h M) {s p c now : Nat} (hc : c < a.n) (hw : want l p c = true)
    (hM : ∀ s p, c ∉ M s p) :
    ∃ a' h', addPopulate a h s p c now = (a', h') ∧
      Seg l a' h' (fun s' p' => if s' = s ∧ p' = p then c :: M s' p' else M s' p') ∧
      a'.n = a.n ∧ a'.head = a.head ∧ a'.tail = a.tail ∧ a'.size = a.size ∧
      a'.ts = upd a.ts c now ∧
      ∀ d, d ≠ c → (∀ s p, d ∉ M s p) → a'.next d = a.next d ∧ a'.prev d = a.prev d := by
  have hhd := (r.chain s p).head
  have hmem : ∀ s' p' d, d ∈ (if s' = s ∧ p' = p then c :: M s' p' else M s' p') →
      (s' = s ∧ p' = p ∧ d = c) ∨ d ∈ M s' p' := by
    intro s' p' d hd
    split at hd
    · rename_i e
      rcases List.mem_cons.1 hd with h | h
      · exact Or.inl ⟨e.1, e.2, h⟩
      · exact Or.inr h
    · exact Or.inr hd
  -- what remains to show about the pointers
  have key : ∀ (a' : Lists) (h' : Shards), a'.n = a.n →
      Chain a.n a'.next a'.prev a.n (h'.head s p) (c :: M s p) →
      h'.tail s p = lastOf a.n (c :: M s p) →
      (∀ s' p', ¬ (s' = s ∧ p' = p) → h'.head s' p' = h.head s' p' ∧ h'.tail s' p' = h.tail s' p') →
      (∀ d, d ≠ c → d ∉ M s p → a'.next d = a.next d ∧ a'.prev d = a.prev d) →
      Seg l a' h' (fun s' p' => if s' = s ∧ p' = p then c :: M s' p' else M s' p') := by
    intro a' h' e1 e2 e3 e4 e5
    constructor
    · intro s' p'
      rw [e1]
      by_cases e : s' = s ∧ p' = p
      · simp only [if_pos e]; rw [e.1, e.2]; exact e2
      · simp only [if_neg e]
        rw [(e4 s' p' e).1]
        refine Chain.frame (r.chain s' p') fun d hd => e5 d (fun h => hM _ _ (h ▸ hd)) fun h => ?_
        exact e ⟨r.disj _ _ _ _ _ hd h, want_part (r.want _ _ _ hd) (r.want _ _ _ h)⟩
    · intro s' p'
      rw [e1]
      by_cases e : s' = s ∧ p' = p
      · simp only [if_pos e]; rw [e.1, e.2]; exact e3
      · simp only [if_neg e]
        rw [(e4 s' p' e).2]; exact r.tail s' p'
    · intro s' p'
      by_cases e : s' = s ∧ p' = p
      · simp only [if_pos e]; exact List.nodup_cons.2 ⟨hM _ _, r.nodup _ _⟩
      · simp only [if_neg e]; exact r.nodup _ _
    · intro s' p' d hd
      rw [e1]
      rcases hmem s' p' d hd with ⟨_, _, rfl⟩ | h
      · exact hc
      · exact r.lt _ _ _ h
    · intro s' p' d hd
      rcases hmem s' p' d hd with ⟨_, rfl, rfl⟩ | h
      · exact hw
      · exact r.want _ _ _ h
    · intro s1 p1 s2 p2 d h1 h2
      rcases hmem s1 p1 d h1 with ⟨e1, _, e3⟩ | g1
      · rcases hmem s2 p2 d h2 with ⟨e2, _, _⟩ | g2
        · rw [e1, e2]
        · exact absurd (e3 ▸ g2) (hM _ _)
      · rcases hmem s2 p2 d h2 with ⟨e2, _, e3⟩ | g2
        · exact absurd (e3 ▸ g1) (hM _ _)
        · exact r.disj _ _ _ _ _ g1 g2
  unfold addPopulate
  by_cases hcur : h.head s p = a.n
  · have hMe : M s p = [] := by
      cases hm : M s p with
      | nil => rfl
      | cons x m =>
        rw [hm] at hhd
        have := r.lt s p x (by rw [hm]; simp)
        simp at hhd; omega
    simp only [hcur, ↓reduceIte]
    refine ⟨_, _, rfl, key _ _ (by rfl) ?_ ?_ ?_ ?_, rfl, rfl, rfl, rfl, rfl, ?_⟩
    · rw [hMe]
      exact ⟨upd2_same _ _ _ _, upd_same _ _ _, upd_same _ _ _⟩
    · rw [hMe]
      exact upd2_same _ _ _ _
    · exact fun s' p' e => ⟨upd2_ne e, upd2_ne e⟩
    · exact fun d hd _ => ⟨upd_ne hd, upd_ne hd⟩
    · exact fun d hd _ => ⟨upd_ne hd, upd_ne hd⟩
  · simp only [hcur, ↓reduceIte]
    obtain ⟨x, m, hm⟩ : ∃ x m, M s p = x :: m := by
      cases hm : M s p with
      | nil => rw [hm] at hhd; exact absurd hhd hcur
      | cons x m => exact ⟨x, m, rfl⟩
    have hx : h.head s p = x := by rw [hhd, hm]; rfl
    have hxM : x ∈ M s p := by rw [hm]; simp
    have hcx : c ≠ x := fun e => hM s p (e ▸ hxM)
    have hch := r.chain s p
    have hnd := r.nodup s p
    rw [hm] at hch hnd
    refine ⟨_, _, rfl, key _ _ (by rfl) ?_ ?_ ?_ ?_, rfl, rfl, rfl, rfl, rfl, ?_⟩
    · rw [hm]
      refine ⟨upd2_same _ _ _ _, ?_, ?_⟩
      · show upd (upd a.prev c a.n) (h.head s p) c c = a.n
        rw [hx, upd_ne hcx, upd_same]
      · show Chain a.n (upd a.next c (h.head s p)) (upd (upd a.prev c a.n) (h.head s p) c) c
          (upd a.next c (h.head s p) c) (x :: m)
        rw [upd_same]
        refine ⟨hx, by rw [hx, upd_same], ?_⟩
        rw [upd_ne (Ne.symm hcx)]
        refine Chain.frame hch.2.2 fun d hd => ?_
        have hdc : d ≠ c := fun e => hM s p (by rw [hm, ← e]; simp [hd])
        have hdx : d ≠ h.head s p := by
          rw [hx]; intro e; exact (List.nodup_cons.1 hnd).1 (e ▸ hd)
        exact ⟨upd_ne hdc, by rw [upd_ne hdx, upd_ne hdc]⟩
    · show h.tail s p = _
      rw [lastOf_cons (by rw [hm]; simp)]; exact r.tail s p
    · exact fun s' p' e => ⟨upd2_ne e, rfl⟩
    · intro d hd hdM
      have hdx : d ≠ h.head s p := by rw [hx]; exact fun e => hdM (e ▸ hxM)
      exact ⟨upd_ne hd, (upd_ne hdx).trans (upd_ne hd)⟩
    · intro d hd hdM
      have hdx : d ≠ h.head s p := by rw [hx]; exact fun e => hdM s p (e ▸ hxM)
      exact ⟨upd_ne hd, (upd_ne hdx).trans (upd_ne hd)⟩

/-- The lists of the shards after the line `c` of shard `s`. -/
def grow (l : Lines) (M : Nat → Nat → List Nat) (s c : Nat) : Nat → Nat → List Nat :=
  fun s' p' => if s' = s ∧ want l p' c = true then c :: M s' p' else M s' p'

theorem popLine_seg {l : Lines} {now : Nat → Nat} {a : Lists} {h : Shards}
    {M : Nat → Nat → List Nat} (r : Seg l a h M) {s c : Nat} (hc : c < a.n)
    (hM : ∀ s p, c ∉ M s p) :
    ∃ a' h', popLine l now (a, h) (s, c) = (a', h') ∧ Seg l a' h' (grow l M s c) ∧ a'.n = a.n ∧
      a'.head = a.head ∧ a'.tail = a.tail ∧
      (∀ p, a'.size p = a.size p + if want l p c = true then 1 else 0) ∧
      (l.mapped c = true → l.dirty c = true → a'.ts c = now c) ∧
      (∀ d, d ≠ c → a'.ts d = a.ts d) ∧
      (l.mapped c = true → l.dirty c = false → a'.next c = a.n ∧ a'.prev c = a.n) ∧
      ∀ d, d ≠ c → (∀ s p, d ∉ M s p) → a'.next d = a.next d ∧ a'.prev d = a.prev d := by
  have hgrow : (∀ p, want l p c = false) → grow l M s c = M := by
    intro h
    funext s' p'
    simp [grow, h p']
  unfold popLine
  cases hm : l.mapped c with
  | false =>
    have hw : ∀ p, want l p c = false := fun p => by simp [want, hm]
    rw [hgrow hw]
    simp only [hm]
    exact ⟨a, h, rfl, r, rfl, rfl, rfl, fun p => by simp [hw p], by simp, fun _ _ => rfl,
      by simp, fun _ _ _ => ⟨rfl, rfl⟩⟩
  | true =>
    cases hd : l.dirty c with
    | false =>
      have hw : ∀ p, want l p c = false := fun p => by simp [want, hd]
      rw [hgrow hw]
      simp only [hm, hd]
      refine ⟨initBlock a c, h, rfl, ?_, rfl, rfl, rfl, fun p => by simp [hw p, initBlock], by simp,
        fun d hdc => upd_ne hdc, fun _ _ => ⟨upd_same _ _ _, upd_same _ _ _⟩,
        fun d hdc _ => ⟨upd_ne hdc, upd_ne hdc⟩⟩
      refine ⟨fun s p => ?_, r.tail, r.nodup, r.lt, r.want, r.disj⟩
      refine Chain.frame (r.chain s p) fun d hdm => ?_
      have hdc : d ≠ c := fun e => hM s p (e ▸ hdm)
      exact ⟨upd_ne hdc, upd_ne hdc⟩
    | true =>
      simp only [hm, hd, Bool.not_true, Bool.false_eq_true, ↓reduceIte]
      have hw : want l (l.part c) c = true := by simp [want, hm, hd]
      obtain ⟨a', h', e, r', e1, e2, e3, e4, e5, e6⟩ :=
        addPopulate_seg (now := now c) (s := s) r hc hw hM
      rw [e]
      have hg : grow l M s c = fun s' p' => if s' = s ∧ p' = l.part c then c :: M s' p' else M s' p' := by
        funext s' p'
        have : (want l p' c = true) ↔ p' = l.part c := by simp [want, hm, hd]; exact eq_comm
        simp only [grow, this]
      rw [← hg] at r'
      refine ⟨_, _, rfl, ⟨r'.chain, r'.tail, r'.nodup, r'.lt, r'.want, r'.disj⟩, e1, e2, e3, ?_, ?_, ?_,
        by simp, e6⟩
      · intro p
        show upd a'.size (l.part c) (a'.size (l.part c) + 1) p = _
        by_cases hp : p = l.part c
        · subst hp; rw [upd_same, e4, if_pos hw]
        · rw [upd_ne hp, e4]
          have : want l p c = false := by simp [want, hm, hd]; exact fun h => hp h.symm
          simp [this]
      · intro _ _
        show a'.ts c = _
        rw [e5, upd_same]
      · intro d hdc
        show a'.ts d = _
        rw [e5, upd_ne hdc]

/-- The lists of the shards after the lines of `sched`. -/
def grown (l : Lines) (M : Nat → Nat → List Nat) (sched : List (Nat × Nat)) :
    Nat → Nat → List Nat :=
  fun s p => ((((sched.filter fun x => x.1 = s).map Prod.snd).filter (want l p)).reverse) ++ M s p

theorem grown_cons (l : Lines) (M : Nat → Nat → List Nat) (s c : Nat) (r : List (Nat × Nat)) :
    grown l M ((s, c) :: r) = grown l (grow l M s c) r := by
  funext s' p'
  unfold grown grow
  by_cases hs : s = s'
  · subst hs
    cases hw : want l p' c <;> simp [hw]
  · have : ¬ s' = s := fun e => hs e.symm
    simp [hs, this]

theorem popFold_seg {l : Lines} {now : Nat → Nat} :
    ∀ (sched : List (Nat × Nat)) {a : Lists} {h : Shards} {M : Nat → Nat → List Nat},
      Seg l a h M → (sched.map Prod.snd).Nodup → (∀ x ∈ sched, x.2 < a.n) →
      (∀ x ∈ sched, ∀ s p, x.2 ∉ M s p) →
      ∃ a' h', sched.foldl (popLine l now) (a, h) = (a', h') ∧ Seg l a' h' (grown l M sched) ∧
        a'.n = a.n ∧ a'.head = a.head ∧ a'.tail = a.tail ∧
        (∀ p, a'.size p = a.size p + ((sched.map Prod.snd).filter (want l p)).length) ∧
        (∀ c ∈ sched.map Prod.snd, l.mapped c = true → l.dirty c = true → a'.ts c = now c) ∧
        (∀ d, d ∉ sched.map Prod.snd → a'.ts d = a.ts d) ∧
        (∀ c ∈ sched.map Prod.snd, l.mapped c = true → l.dirty c = false →
          a'.next c = a.n ∧ a'.prev c = a.n) ∧
        ∀ d, d ∉ sched.map Prod.snd → (∀ s p, d ∉ M s p) →
          a'.next d = a.next d ∧ a'.prev d = a.prev d
  | [], a, h, M, r, _, _, _ => by
    refine ⟨a, h, rfl, ?_, rfl, rfl, rfl, fun p => by simp, by simp, fun _ _ => rfl, by simp,
      fun _ _ _ => ⟨rfl, rfl⟩⟩
    have : grown l M [] = M := by funext s p; simp [grown]
    rwa [this]
  | (s, c) :: sched, a, h, M, r, hn, hlt, hM => by
    simp only [List.map_cons, List.nodup_cons] at hn
    have hMc : ∀ s p, c ∉ M s p := hM (s, c) (by simp)
    obtain ⟨a1, h1, e, r1, en, eh, et, es, ets, ets', ef, efr⟩ :=
      popLine_seg (now := now) (s := s) r (hlt (s, c) (by simp)) hMc
    have hne : ∀ x ∈ sched, x.2 ≠ c := fun x hx e => hn.1 (e ▸ List.mem_map_of_mem hx)
    have hgM : ∀ d, d ≠ c → (∀ s p, d ∉ M s p) → ∀ s' p', d ∉ grow l M s c s' p' := by
      intro d hd hdM s' p' hm
      unfold grow at hm
      split at hm
      · rcases List.mem_cons.1 hm with h | h
        · exact hd h
        · exact hdM _ _ h
      · exact hdM _ _ hm
    obtain ⟨a2, h2, e2, r2, en2, eh2, et2, es2, ets2, ets2', ef2, efr2⟩ :=
      popFold_seg sched (now := now) r1 hn.2
        (fun x hx => en ▸ hlt x (by simp [hx]))
        (fun x hx => hgM x.2 (hne x hx) (hM x (by simp [hx])))
    rw [List.foldl_cons, e, e2, grown_cons]
    refine ⟨a2, h2, rfl, r2, en2.trans en, eh2.trans eh, et2.trans et, ?_, ?_, ?_, ?_, ?_⟩
    · intro p
      rw [es2, es]
      cases hw : want l p c <;> simp [hw] <;> omega
    · intro d hd hm hdd
      simp only [List.map_cons, List.mem_cons] at hd
      by_cases hds : d ∈ sched.map Prod.snd
      · exact ets2 d hds hm hdd
      · rcases hd with rfl | hd
        · rw [ets2' _ hds]; exact ets hm hdd
        · exact absurd hd hds
    · intro d hd
      simp only [List.map_cons, List.mem_cons, not_or] at hd
      rw [ets2' d hd.2, ets' d hd.1]
    · intro d hd hm hdd
      simp only [List.map_cons, List.mem_cons] at hd
      by_cases hds : d ∈ sched.map Prod.snd
      · have := ef2 d hds hm hdd
        rwa [en] at this
      · rcases hd with rfl | hd
        · have hdg : ∀ s' p', d ∉ grow l M s d s' p' := by
            intro s' p'
            have hw : want l p' d = false := by simp [want, hdd]
            unfold grow
            rw [if_neg (by simp [hw])]
            exact hMc _ _
          have := efr2 d hds hdg
          have h3 := ef hm hdd
          exact ⟨this.1.trans h3.1, this.2.trans h3.2⟩
        · exact absurd hd hds
    · intro d hd hdM
      simp only [List.map_cons, List.mem_cons, not_or] at hd
      have h3 := efr2 d hd.2 (hgM d hd.1 hdM)
      have h4 := efr d hd.1 hdM
      exact ⟨h3.1.trans h4.1, h3.2.trans h4.2⟩

/-! ## The shards cover the cache -/

theorem portion_eq {n : Nat} (hn : n < 2 ^ 32) : portion n shardsCnt = (n + 31) / 32 := by
  unfold portion shardsCnt
  omega

theorem begin_eq {n s : Nat} (hn : n < 2 ^ 32) (hs : s < 32) :
    shardBegin n shardsCnt s = (n + 31) / 32 * s := by
  unfold shardBegin
  rw [portion_eq hn, Nat.mod_eq_of_lt]
  have h1 : (n + 31) / 32 ≤ 2 ^ 27 := by omega
  calc (n + 31) / 32 * s ≤ 2 ^ 27 * s := Nat.mul_le_mul_right _ h1
    _ < 2 ^ 32 := by omega

theorem mem_shardLines {n s c : Nat} (hn : n < 2 ^ 32) (hs : s < 32) :
    c ∈ shardLines n shardsCnt s ↔ c < n ∧ (n + 31) / 32 * s ≤ c ∧ c < (n + 31) / 32 * (s + 1) := by
  unfold shardLines shardEnd
  rw [begin_eq hn hs, portion_eq hn, List.mem_range'_1]
  generalize (n + 31) / 32 * s = x
  generalize (n + 31) / 32 * (s + 1) = y
  omega

theorem shard_unique {n s s' c : Nat} (hn : n < 2 ^ 32) (hs : s < 32) (hs' : s' < 32)
    (h : c ∈ shardLines n shardsCnt s) (h' : c ∈ shardLines n shardsCnt s') : s = s' := by
  rw [mem_shardLines hn hs] at h
  rw [mem_shardLines hn hs'] at h'
  generalize (n + 31) / 32 = k at *
  have a1 : s < s' + 1 := by
    by_contra hc
    have : k * (s' + 1) ≤ k * s := Nat.mul_le_mul_left _ (by omega)
    omega
  have a2 : s' < s + 1 := by
    by_contra hc
    have : k * (s + 1) ≤ k * s' := Nat.mul_le_mul_left _ (by omega)
    omega
  omega

/-- The shards, one after the other, are all lines in order. -/
theorem shards_cover {n : Nat} (hn : n < 2 ^ 32) :
    (List.range 32).flatMap (shardLines n shardsCnt) = List.range n := by
  have key : ∀ k, k ≤ 32 → (List.range k).flatMap (shardLines n shardsCnt) =
      List.range (min ((n + 31) / 32 * k) n) := by
    intro k
    induction k with
    | zero => intro _; simp
    | succ k ih =>
      intro hk
      rw [List.range_succ, List.flatMap_append, ih (by omega)]
      simp only [List.flatMap_cons, List.flatMap_nil, List.append_nil]
      unfold shardLines shardEnd
      rw [begin_eq hn (by omega), portion_eq hn]
      have hle : (n + 31) / 32 * k ≤ (n + 31) / 32 * (k + 1) := Nat.mul_le_mul_left _ (by omega)
      generalize (n + 31) / 32 * k = x at *
      generalize (n + 31) / 32 * (k + 1) = y at *
      rw [List.range_eq_range', List.range_eq_range']
      by_cases hx : x ≤ n
      · rw [Nat.min_eq_left hx]
        have := List.range'_append_1 (s := 0) (m := x) (n := min y n - x)
        rw [Nat.zero_add] at this
        rw [this]
        congr 1
        omega
      · have e1 : min x n = n := by omega
        have e2 : min y n = n := by omega
        have e3 : min y n - x = 0 := by omega
        rw [e1, e2]
        have e4 : n - x = 0 := by omega
        rw [e4]; simp
  rw [key 32 (Nat.le_refl _)]
  congr 1
  omega

theorem sched_nodup {n : Nat} (hn : n < 2 ^ 32) :
    ∀ (sched : List (Nat × Nat)), (∀ x ∈ sched, x.1 < 32) →
      (∀ x ∈ sched, x.2 ∈ shardLines n shardsCnt x.1) →
      (∀ s, s < 32 → ((sched.filter fun x => x.1 = s).map Prod.snd).Nodup) →
      (sched.map Prod.snd).Nodup
  | [], _, _, _ => by simp
  | x :: r, h1, h2, h3 => by
    have ih := sched_nodup hn r (fun y hy => h1 y (by simp [hy])) (fun y hy => h2 y (by simp [hy]))
      (fun s hs => by
        have := h3 s hs
        rw [List.filter_cons] at this
        split at this
        · rw [List.map_cons, List.nodup_cons] at this; exact this.2
        · exact this)
    rw [List.map_cons, List.nodup_cons]
    refine ⟨fun hm => ?_, ih⟩
    obtain ⟨y, hy, he⟩ := List.mem_map.1 hm
    have hxy : y.1 = x.1 := by
      refine shard_unique hn (h1 y (by simp [hy])) (h1 x (by simp)) (h2 y (by simp [hy])) ?_
      rw [he]; exact h2 x (by simp)
    have := h3 x.1 (h1 x (by simp))
    rw [List.filter_cons, if_pos (by simp), List.map_cons, List.nodup_cons] at this
    exact this.1 (he ▸ List.mem_map_of_mem (List.mem_filter.2 ⟨hy, by simp [hxy]⟩))

theorem sched_facts {n : Nat} (hn : n < 2 ^ 32) {sched : List (Nat × Nat)}
    (h : Sched n shardsCnt sched) :
    (sched.map Prod.snd).Nodup ∧ ∀ c, c ∈ sched.map Prod.snd ↔ c < n := by
  obtain ⟨h1, h2⟩ := h
  have hmem : ∀ x ∈ sched, x.2 ∈ shardLines n shardsCnt x.1 := by
    intro x hx
    rw [← h2 x.1 (h1 x hx)]
    exact List.mem_map_of_mem (List.mem_filter.2 ⟨hx, by simp⟩)
  refine ⟨sched_nodup hn sched h1 hmem fun s hs => ?_, fun c => ⟨fun hc => ?_, fun hc => ?_⟩⟩
  · rw [h2 s hs]
    unfold shardLines
    exact List.nodup_range'
  · obtain ⟨x, hx, rfl⟩ := List.mem_map.1 hc
    exact ((mem_shardLines hn (h1 x hx)).1 (hmem x hx)).1
  · have : c ∈ (List.range 32).flatMap (shardLines n shardsCnt) := by
      rw [shards_cover hn]; simpa using hc
    obtain ⟨s, hs, hcs⟩ := List.mem_flatMap.1 this
    rw [← h2 s (by unfold shardsCnt; simpa using hs)] at hcs
    obtain ⟨x, hx, rfl⟩ := List.mem_map.1 hcs
    exact List.mem_map_of_mem (List.mem_filter.1 hx).1

/-! ## The lists of the shards appended -/

/-- The list of class `p` after the segments of `ps` were put in front. -/
def joined (M : Nat → Nat → List Nat) (L : Nat → List Nat) :
    List (Nat × Nat) → Nat → List Nat
  | [] => L
  | (p, s) :: ps => joined M (upd L p (M s p ++ L p)) ps

theorem popAppend_spec {l : Lines} {h : Shards} {M : Nat → Nat → List Nat} :
    ∀ (ps : List (Nat × Nat)) {a : Lists} {L : Nat → List Nat}, ps.Nodup →
      (∀ p, Chain a.n a.next a.prev a.n (a.head p) (L p)) →
      (∀ p, a.tail p = lastOf a.n (L p)) →
      (∀ p, (L p).Nodup) → (∀ p c, c ∈ L p → c < a.n ∧ want l p c = true) →
      (∀ x ∈ ps, Chain a.n a.next a.prev a.n (h.head x.2 x.1) (M x.2 x.1)) →
      (∀ x ∈ ps, h.tail x.2 x.1 = lastOf a.n (M x.2 x.1)) →
      (∀ x ∈ ps, (M x.2 x.1).Nodup) →
      (∀ x ∈ ps, ∀ c, c ∈ M x.2 x.1 → c < a.n ∧ want l x.1 c = true ∧ c ∉ L x.1) →
      (∀ x ∈ ps, ∀ y ∈ ps, ∀ c, c ∈ M x.2 x.1 → c ∈ M y.2 y.1 → x.2 = y.2) →
      ∃ a', popAppend h (some a) ps = some a' ∧
        (∀ p, Chain a.n a'.next a'.prev a.n (a'.head p) (joined M L ps p)) ∧
        (∀ p, a'.tail p = lastOf a.n (joined M L ps p)) ∧
        (∀ p, (joined M L ps p).Nodup) ∧
        (∀ p c, c ∈ joined M L ps p → c < a.n ∧ want l p c = true) ∧
        a'.n = a.n ∧ a'.ts = a.ts ∧ a'.size = a.size ∧
        ∀ d, (∀ p, want l p d = false) → a'.next d = a.next d ∧ a'.prev d = a.prev d
  | [], a, L, _, h1, h2, h3, h4, _, _, _, _, _ =>
    ⟨a, rfl, h1, h2, h3, h4, rfl, rfl, rfl, fun _ _ => ⟨rfl, rfl⟩⟩
  | (p, s) :: ps, a, L, hps, h1, h2, h3, h4, h5, h6, h7, h8, h9 => by
    have hx : (p, s) ∈ (p, s) :: ps := by simp
    have g5 := h5 _ hx
    have g6 := h6 _ hx
    have g7 := h7 _ hx
    have g8 := h8 _ hx
    have hnd : (M s p ++ L p).Nodup := by
      rw [List.nodup_append]
      exact ⟨g7, h3 p, fun x hx y hy e => (g8 x hx).2.2 (e ▸ hy)⟩
    obtain ⟨a1, e, c1, t1, n1, ts1, s1, o1, f1⟩ := append_spec (h1 p) (h2 p) g5 g6 hnd (by
      intro c hc
      rcases List.mem_append.1 hc with hc | hc
      · exact (g8 c hc).1
      · exact (h4 p c hc).1)
    have hframe : ∀ q c, want l q c = true → (q = p → c ∉ M s p ∧ c ∉ L p) →
        a1.next c = a.next c ∧ a1.prev c = a.prev c := by
      intro q c hw hq
      refine f1 c fun hm => ?_
      rcases List.mem_append.1 hm with hm | hm
      · have := want_part hw (g8 c hm).2.1
        exact (hq this).1 hm
      · have := want_part hw (h4 p c hm).2
        exact (hq this).2 hm
    have hps' := (List.nodup_cons.1 hps)
    have hMM : ∀ x ∈ ps, x.1 = p → ∀ c, c ∈ M x.2 x.1 → c ∉ M s p := by
      intro x hxp hxe c hc hc'
      have : x.2 = s := h9 x (by simp [hxp]) (p, s) hx c hc hc'
      refine hps'.1 ?_
      rw [← hxe, ← this]; exact hxp
    obtain ⟨a2, e2, c2, t2, nd2, m2, n2, ts2, s2, f2⟩ := popAppend_spec (h := h) (M := M) (l := l) ps
      (a := a1) (L := upd L p (M s p ++ L p)) hps'.2
      (fun q => by
        rw [n1]
        by_cases hq : q = p
        · subst hq; rw [upd_same]; exact c1
        · rw [upd_ne hq, (o1 q hq).1]
          exact Chain.frame (h1 q) fun d hd => hframe q d (h4 q d hd).2 fun e => absurd e hq)
      (fun q => by
        rw [n1]
        by_cases hq : q = p
        · subst hq; rw [upd_same]; exact t1
        · rw [upd_ne hq, (o1 q hq).2]; exact h2 q)
      (fun q => by
        by_cases hq : q = p
        · subst hq; rw [upd_same]; exact hnd
        · rw [upd_ne hq]; exact h3 q)
      (fun q c hc => by
        rw [n1]
        by_cases hq : q = p
        · subst hq
          rw [upd_same] at hc
          rcases List.mem_append.1 hc with hc | hc
          · exact ⟨(g8 c hc).1, (g8 c hc).2.1⟩
          · exact h4 q c hc
        · rw [upd_ne hq] at hc; exact h4 q c hc)
      (fun x hxp => by
        rw [n1]
        refine Chain.frame (h5 x (by simp [hxp])) fun d hd =>
          hframe x.1 d (h8 x (by simp [hxp]) d hd).2.1 fun e =>
          ⟨hMM x hxp e d hd, e ▸ (h8 x (by simp [hxp]) d hd).2.2⟩)
      (fun x hxp => by rw [n1]; exact h6 x (by simp [hxp]))
      (fun x hxp => h7 x (by simp [hxp]))
      (fun x hxp c hc => by
        have g := h8 x (by simp [hxp]) c hc
        rw [n1]
        refine ⟨g.1, g.2.1, ?_⟩
        by_cases hq : x.1 = p
        · rw [hq, upd_same]
          intro hm
          rcases List.mem_append.1 hm with hm | hm
          · exact hMM x hxp hq c hc hm
          · exact g.2.2 (hq ▸ hm)
        · rw [upd_ne hq]; exact g.2.2)
      (fun x hxp y hyp => h9 x (by simp [hxp]) y (by simp [hyp]))
    refine ⟨a2, ?_, ?_, ?_, nd2, ?_, n2.trans n1, ts2.trans ts1, s2.trans s1, ?_⟩
    · show popAppend h ((some a).bind fun a => append a p (h.head s p) (h.tail s p)) ps = _
      rw [Option.bind_some, e]; exact e2
    · intro q; rw [← n1]; exact c2 q
    · intro q; rw [← n1]; exact t2 q
    · intro q c hc; rw [← n1]; exact m2 q c hc
    · intro d hd
      have h10 := f2 d hd
      have h11 := f1 d (fun hm => by
        rcases List.mem_append.1 hm with hm | hm
        · exact absurd (g8 d hm).2.1 (by simp [hd])
        · exact absurd (h4 p d hm).2 (by simp [hd]))
      exact ⟨h10.1.trans h11.1, h10.2.trans h11.2⟩

theorem joined_append (M : Nat → Nat → List Nat) :
    ∀ (xs ys : List (Nat × Nat)) (L : Nat → List Nat),
      joined M L (xs ++ ys) = joined M (joined M L xs) ys
  | [], _, _ => rfl
  | (p, s) :: xs, ys, L => joined_append M xs ys _

theorem joined_one (M : Nat → Nat → List Nat) (p : Nat) :
    ∀ (ss : List Nat) (L : Nat → List Nat),
      joined M L (ss.map fun s => (p, s)) = upd L p ((ss.reverse.flatMap fun s => M s p) ++ L p)
  | [], L => by
    funext q
    by_cases hq : q = p
    · subst hq; rw [upd_same]; rfl
    · rw [upd_ne hq]; rfl
  | s :: ss, L => by
    show joined M (upd L p (M s p ++ L p)) (ss.map fun s => (p, s)) = _
    rw [joined_one M p ss]
    funext q
    by_cases hq : q = p
    · subst hq; rw [upd_same, upd_same, upd_same]; simp
    · rw [upd_ne hq, upd_ne hq, upd_ne hq]

theorem joined_all (M : Nat → Nat → List Nat) (ss : List Nat) (parts : Nat) (q : Nat) :
    joined M (fun _ => []) ((List.range parts).flatMap fun p => ss.map fun s => (p, s)) q =
      if q < parts then ss.reverse.flatMap fun s => M s q else [] := by
  induction parts with
  | zero => simp [joined]
  | succ k ih =>
    rw [List.range_succ, List.flatMap_append, joined_append]
    simp only [List.flatMap_cons, List.flatMap_nil, List.append_nil]
    rw [joined_one]
    by_cases hq : q = k
    · subst hq
      rw [upd_same, ih]; simp
    · rw [upd_ne hq, ih]
      have : q < k + 1 ↔ q < k := by omega
      simp only [this]

theorem flatMap_reverse_reverse {α β : Type} (f : α → List β) :
    ∀ l : List α, (l.reverse.flatMap fun x => (f x).reverse) = (l.flatMap f).reverse
  | [] => rfl
  | x :: l => by
    simp only [List.reverse_cons, List.flatMap_append, List.flatMap_cons, List.flatMap_nil,
      List.append_nil, List.reverse_append]
    rw [flatMap_reverse_reverse f l]

theorem flatMap_filter {α β : Type} (f : α → List β) (P : β → Bool) :
    ∀ l : List α, (l.flatMap fun x => (f x).filter P) = (l.flatMap f).filter P
  | [] => rfl
  | x :: l => by
    simp only [List.flatMap_cons, List.filter_append]
    rw [flatMap_filter f P l]

/-- Filling the lists, whatever they held. -/
theorem populate_rep {a : Lists} {l : Lines} {parts : Nat} {now : Nat → Nat}
    {sched : List (Nat × Nat)} (hn : a.n < 2 ^ 32)
    (hpart : ∀ c, c < a.n → l.mapped c = true → l.part c < parts)
    (hs : Sched a.n shardsCnt sched) :
    ∃ a', populate a l parts shardsCnt now sched = some a' ∧
      Rep a' (fun p => (List.range a.n).reverse.filter (want l p)) ∧ a'.n = a.n ∧
      (∀ c, c < a.n → l.mapped c = true → l.dirty c = true → a'.ts c = now c) ∧
      ∀ c, c < a.n → l.mapped c = true → l.dirty c = false → a'.next c = a.n ∧ a'.prev c = a.n := by
  obtain ⟨hnd, hmem⟩ := sched_facts hn hs
  unfold populate
  obtain ⟨a1, h1, e, r1, en, eh, et, es, ets, _, ef, _⟩ := popFold_seg (l := l) (now := now) sched
    (a := { a with head := fun _ => a.n, tail := fun _ => a.n, size := fun _ => 0 })
    (h := { head := fun _ _ => a.n, tail := fun _ _ => a.n }) (M := fun _ _ => [])
    ⟨fun _ _ => rfl, fun _ _ => rfl, fun _ _ => List.nodup_nil, by simp, by simp, by simp⟩
    hnd (fun x hx => (hmem x.2).1 (List.mem_map_of_mem hx)) (by simp)
  simp only [e]
  have en' : a1.n = a.n := en
  have hpn : ((List.range parts).flatMap fun p => (List.range shardsCnt).map fun s => (p, s)).Nodup := by
    rw [List.nodup_flatMap]
    refine ⟨fun p _ => ?_, ?_⟩
    · refine List.Nodup.map (fun s s' h => ?_) List.nodup_range
      exact (Prod.mk.inj h).2
    · refine List.Pairwise.imp ?_ List.nodup_range
      intro p q hpq
      simp only [Function.onFun, List.Disjoint]
      intro x hx hy
      obtain ⟨s, _, rfl⟩ := List.mem_map.1 hx
      obtain ⟨s', _, h⟩ := List.mem_map.1 hy
      exact hpq (Prod.mk.inj h).1.symm
  obtain ⟨a2, e2, c2, t2, nd2, m2, n2, ts2, s2, f2⟩ := popAppend_spec (l := l) (h := h1)
    (M := grown l (fun _ _ => []) sched) _ (a := a1) (L := fun _ => []) hpn
    (fun p => by rw [eh, en']; exact rfl)
    (fun p => by rw [et, en']; exact rfl)
    (fun _ => List.nodup_nil) (by simp)
    (fun x _ => r1.chain _ _) (fun x _ => r1.tail _ _) (fun x _ => r1.nodup _ _)
    (fun x _ c hc => ⟨r1.lt _ _ _ hc, r1.want _ _ _ hc, by simp⟩)
    (fun x _ y _ c hc hc' => r1.disj _ _ _ _ _ hc hc')
  rw [e2]
  have hL : joined (grown l (fun _ _ => []) sched) (fun _ => [])
      ((List.range parts).flatMap fun p => (List.range shardsCnt).map fun s => (p, s)) =
      fun p => (List.range a.n).reverse.filter (want l p) := by
    funext q
    rw [joined_all]
    have e1 : ((List.range shardsCnt).reverse.flatMap fun s => grown l (fun _ _ => []) sched s q) =
        (List.range a.n).reverse.filter (want l q) := by
      have e3 : ((List.range shardsCnt).reverse.flatMap fun s => grown l (fun _ _ => []) sched s q) =
          ((List.range shardsCnt).reverse.flatMap fun s =>
            ((shardLines a.n shardsCnt s).filter (want l q)).reverse) := by
        refine List.flatMap_congr ?_
        intro s hs'
        unfold grown
        rw [hs.2 s (by simpa using hs'), List.append_nil]
      rw [e3, flatMap_reverse_reverse (fun s => (shardLines a.n shardsCnt s).filter (want l q)),
        flatMap_filter]
      show (List.filter _ ((List.range 32).flatMap (shardLines a.n shardsCnt))).reverse = _
      rw [shards_cover hn, List.filter_reverse]
    rw [e1]
    split
    · rfl
    · rename_i hq
      symm
      rw [List.filter_eq_nil_iff]
      intro c hc hw
      have hc' : c < a.n := by simpa using hc
      have hm : l.mapped c = true := by unfold want at hw; simp at hw; exact hw.1.1
      have hp : l.part c = q := by unfold want at hw; simp at hw; exact hw.2
      exact hq (hp ▸ hpart c hc' hm)
  rw [hL] at c2 t2 nd2 m2
  refine ⟨a2, rfl, ⟨?_, ?_, ?_, nd2, ?_, ?_⟩, n2.trans en', ?_, ?_⟩
  · intro p
    rw [n2]; exact c2 p
  · intro p; rw [n2]; exact t2 p
  · intro p
    rw [s2, es]
    simp only [Nat.zero_add]
    refine List.Perm.length_eq (List.Perm.filter _ ?_)
    rw [List.perm_ext_iff_of_nodup hnd (List.nodup_reverse.2 List.nodup_range)]
    intro c
    rw [hmem c]; simp
  · intro p c hc; rw [n2]; exact (m2 p c hc).1
  · intro p q c hc hc'
    exact want_part (m2 p c hc).2 (m2 q c hc').2
  · intro c hc hm hd
    rw [ts2]
    exact ets c ((hmem c).2 hc) hm hd
  · intro c hc hm hd
    have h3 := f2 c (fun p => by simp [want, hd])
    have h4 := ef c ((hmem c).2 hc) hm hd
    exact ⟨h3.1.trans h4.1, h3.2.trans h4.2⟩

end Verif.Alru
