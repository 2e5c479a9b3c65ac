import Verif.Lemma.Lru
import Verif.Lemma.Common

/-!
# Recency lists and line ownership (C05, C30)

Specification: a list is a sequence of lines.  A line enters at the front, leaves from
anywhere, and a touch moves it to the front.  Every line of the cache is in exactly one of the
sequences, the one that belongs to its partition and dirtiness.
-/

namespace Verif.Lru

/-- Following pointers from `a` visits exactly `xs`. -/
def Chain (f : Nat → Option Nat) : Option Nat → List Nat → Prop
  | a, [] => a = none
  | a, x :: xs => a = some x ∧ Chain f (f x) xs

/-- What a pointer list looks like from outside: forward and backward walks give the sequence
and its reverse, and exactly the first half is hot (if hotness is tracked). -/
structure Listed (m : Nat → Meta) (l : LList) (xs : List Nat) : Prop where
  nodup : xs.Nodup
  fwd : Chain (fun x => (m x).next) l.head xs
  bwd : Chain (fun x => (m x).prev) l.tail xs.reverse
  count : l.numNodes = xs.length
  hot : ∀ (i x : Nat), xs[i]? = some x →
    ((m x).hot = true ↔ l.trackHot = true ∧ i < xs.length / 2)

theorem listed_of_bal {m : Nat → Meta} {l : LList} {xs : List Nat} (r : Bal m l xs) :
    Listed m l xs := by
  have fw : ∀ n j, xs.length - j = n → Chain (fun x => (m x).next) xs[j]? (xs.drop j) := by
    intro n
    induction n with
    | zero =>
      intro j hj
      rw [List.drop_eq_nil_of_le (by omega)]
      exact List.getElem?_eq_none (by omega)
    | succ n ih =>
      intro j hj
      have hl : j < xs.length := by omega
      rw [List.drop_eq_getElem_cons hl]
      refine ⟨List.getElem?_eq_getElem hl, ?_⟩
      have := r.node j xs[j] (List.getElem?_eq_getElem hl)
      simp only [this]
      exact ih (j + 1) (by omega)
  have bw : ∀ j, j ≤ xs.length →
      Chain (fun x => (m x).prev) (if j = 0 then none else xs[j - 1]?) (xs.take j).reverse := by
    intro j
    induction j with
    | zero => intro _; simp [Chain]
    | succ j ih =>
      intro hj
      have hl : j < xs.length := by omega
      rw [List.take_succ_eq_append_getElem hl, List.reverse_append]
      refine ⟨by simp [List.getElem?_eq_getElem hl], ?_⟩
      have := r.node j xs[j] (List.getElem?_eq_getElem hl)
      simp only [this]
      exact ih (by omega)
  refine ⟨r.nodup, ?_, ?_, r.len, ?_⟩
  · rw [r.head]; have := fw _ 0 rfl; simpa using this
  · rw [r.tail]
    have := bw xs.length (Nat.le_refl _)
    rw [List.take_length] at this
    by_cases h : xs.length = 0
    · have : xs = [] := List.eq_nil_of_length_eq_zero h
      subst this; simp [Chain]
    · rw [if_neg h] at this; exact this
  · intro i x hx
    rw [r.node i x hx]
    cases l.trackHot <;> simp

/-! ## One list -/

/-- Operations on a list. -/
inductive Op where
  | add (c : Nat)
  | remove (c : Nat)
  | touch (c : Nat)

/-- Allowed: adding a line that is not there, removing or touching one that is. -/
def Op.ok : Op → List Nat → Prop
  | .add c, xs => c ∉ xs
  | .remove c, xs => c ∈ xs
  | .touch c, xs => c ∈ xs

/-- Meaning on sequences. -/
def Op.spec : Op → List Nat → List Nat
  | .add c, xs => c :: xs
  | .remove c, xs => xs.filter (· ≠ c)
  | .touch c, xs => c :: xs.filter (· ≠ c)

/-- The code. -/
def Op.run : Op → LS → LS
  | .add c, s => addHead s c
  | .remove c, s => Lru.remove s c
  | .touch c, s => setHot s c

/-- Specification of a run; `none` if an operation is not allowed. -/
inductive SpecRun : List Nat → List Op → List Nat → Prop where
  | nil (xs : List Nat) : SpecRun xs [] xs
  | cons (xs ys : List Nat) (o : Op) (os : List Op) :
      o.ok xs → SpecRun (o.spec xs) os ys → SpecRun xs (o :: os) ys

theorem erase_filter {xs : List Nat} (h : xs.Nodup) (c : Nat) : xs.erase c = xs.filter (· ≠ c) := by
  rw [List.Nodup.erase_eq_filter h]
  apply List.filter_congr
  intro x _
  simp [bne]
  rfl

theorem op_bal {s : LS} {xs : List Nat} (r : Bal s.m s.l xs) (o : Op) (h : o.ok xs) :
    Bal (o.run s).m (o.run s).l (o.spec xs) ∧ (o.run s).bug = s.bug ∧
    (o.run s).l.trackHot = s.l.trackHot := by
  cases o with
  | add c => obtain ⟨h1, h2, h3, _⟩ := bal_addHead r h; exact ⟨h1, h2, h3⟩
  | remove c =>
    obtain ⟨h1, h2, h3, _⟩ := bal_remove r h
    rw [erase_filter r.nodup] at h1
    exact ⟨h1, h2, h3⟩
  | touch c =>
    obtain ⟨h1, h2, h3, _⟩ := bal_setHot r h
    rw [erase_filter r.nodup] at h1
    exact ⟨h1, h2, h3⟩

/-- **C05.**  After any allowed sequence of operations on an empty list the list is exactly the
sequence of the specification, its first half is hot, and no assertion fired.  `m` is
arbitrary: the nodes may hold anything at the start. -/
theorem list_exact (m : Nat → Meta) (track : Bool) (os : List Op) (ys : List Nat)
    (h : SpecRun [] os ys) :
    let s := os.foldl (fun s o => o.run s) ⟨m, initList track, false⟩
    Listed s.m s.l ys ∧ s.bug = false ∧ s.l.trackHot = track := by
  have main : ∀ (os : List Op) (xs ys : List Nat) (s : LS), Bal s.m s.l xs → s.bug = false →
      s.l.trackHot = track → SpecRun xs os ys →
      Listed (os.foldl (fun s o => o.run s) s).m (os.foldl (fun s o => o.run s) s).l ys ∧
      (os.foldl (fun s o => o.run s) s).bug = false ∧
      (os.foldl (fun s o => o.run s) s).l.trackHot = track := by
    intro os
    induction os with
    | nil => intro xs ys s hb hbug ht h; cases h; exact ⟨listed_of_bal hb, hbug, ht⟩
    | cons o os ih =>
      intro xs ys s hb hbug ht h
      cases h with
      | cons _ _ _ _ ho hr =>
        obtain ⟨h1, h2, h3⟩ := op_bal hb o ho
        exact ih _ ys _ h1 (h2.trans hbug) (h3.trans ht) hr
  refine main os [] ys ⟨m, initList track, false⟩ ?_ rfl rfl h
  have := rep_init m track
  unfold Bal
  simpa [initList] using this

/-- Five lines added, one removed, one touched. -/
example : SpecRun [] [.add 7, .add 3, .add 9, .add 4, .add 1, .remove 9, .touch 7] [7, 1, 4, 3] := by
  repeat (first | exact .nil _ | refine .cons _ _ _ _ (by simp [Op.ok, Op.spec]) ?_)

/-- The nodes outside the list are not touched (lists share the node array). -/
theorem list_frame (s : LS) (xs : List Nat) (r : Bal s.m s.l xs) (o : Op) (h : o.ok xs)
    (x : Nat) (hx : x ∉ xs) (hx' : x ∉ o.spec xs) : (o.run s).m x = s.m x := by
  cases o with
  | add c => exact (bal_addHead r h).2.2.2 x hx'
  | remove c => exact (bal_remove r h).2.2.2 x hx
  | touch c => exact (bal_setHot r h).2.2.2 x hx

/-! ## All lists of a cache -/

/-- Changes of the partition, recency and dirtiness of lines.  `repart` stands for insertion
from the free list, eviction, invalidation and re-classification alike. -/
inductive COp where
  | repart (c dst : Nat)
  | touch (c : Nat)
  | hot (c : Nat)
  | clean (c : Nat)
  | dirty (c : Nat)
  | forget (c : Nat)

/-- The code. -/
def COp.run : COp → Cache → Cache
  | .repart c dst, s => s.repart c dst
  | .touch c, s => s.touch c
  | .hot c, s => s.hotLine c
  | .clean c, s => s.becomeClean c
  | .dirty c, s => s.becomeDirty c
  | .forget c, s => s.forgetDirty c

/-- Allowed operations on a cache of `N` lines, in terms of the attributes of lines only. -/
def COp.ok (N : Nat) : COp → (Nat → Nat) → (Nat → Bool) → Prop
  | .repart c _, _, _ => c < N
  | .touch c, _, _ => c < N
  | .hot c, _, _ => c < N
  | .clean c, part, d => c < N ∧ d c = true ∧ part c ≠ freeId
  | .dirty c, part, d => c < N ∧ d c = false ∧ part c ≠ freeId
  | .forget c, part, _ => part c = freeId

/-- Take `c` out of every sequence and put it first in sequence `k`. -/
def front (q : Key → List Nat) (c : Nat) (k : Key) : Key → List Nat :=
  fun k' => if k' = k then c :: (q k').filter (· ≠ c) else (q k').filter (· ≠ c)

/-- Attributes of lines and sequences: the specification state. -/
structure Spec where
  part : Nat → Nat
  dirty : Nat → Bool
  seq : Key → List Nat

/-- The sequence a line belongs to: by partition, index modulo the number of lists, and
cleanness; the free partition has no dirty sequences. -/
def Spec.home (t : Spec) (c : Nat) : Key :=
  ⟨t.part c, c % numLru, !t.dirty c || t.part c == freeId⟩

/-- A line is in the first half of a sequence of a class. -/
def Spec.isHot (t : Spec) (c : Nat) : Prop :=
  t.part c ≠ freeId ∧ ∃ i, (t.seq (t.home c))[i]? = some c ∧ i < (t.seq (t.home c)).length / 2

/-- Function update. -/
def fupd {α : Type} (f : Nat → α) (c : Nat) (a : α) : Nat → α := fun x => if x = c then a else f x

/-- Specification of the operations. -/
inductive SpecStep : Spec → COp → Spec → Prop where
  | repart (t t' : Spec) (c dst : Nat) : t'.part = fupd t.part c dst → t'.dirty = t.dirty →
      t'.seq = front t.seq c (t'.home c) → SpecStep t (.repart c dst) t'
  | touch (t t' : Spec) (c : Nat) : t'.part = t.part → t'.dirty = t.dirty →
      t'.seq = front t.seq c (t'.home c) → SpecStep t (.touch c) t'
  | hotNo (t : Spec) (c : Nat) : t.isHot c → SpecStep t (.hot c) t
  | hotYes (t t' : Spec) (c : Nat) : ¬ t.isHot c → t'.part = t.part → t'.dirty = t.dirty →
      t'.seq = front t.seq c (t'.home c) → SpecStep t (.hot c) t'
  | clean (t t' : Spec) (c : Nat) : t'.part = t.part → t'.dirty = fupd t.dirty c false →
      t'.seq = front t.seq c (t'.home c) → SpecStep t (.clean c) t'
  | dirty (t t' : Spec) (c : Nat) : t'.part = t.part → t'.dirty = fupd t.dirty c true →
      t'.seq = front t.seq c (t'.home c) → SpecStep t (.dirty c) t'
  | forget (t t' : Spec) (c : Nat) : t'.part = t.part → t'.dirty = fupd t.dirty c false →
      t'.seq = t.seq → SpecStep t (.forget c) t'

/-- The concrete lists show the sequences of the specification; every line is in exactly the
sequence it belongs to; the reported sizes are the numbers of lines. -/
structure Exact (N : Nat) (s : Cache) (t : Spec) : Prop where
  part : s.part = t.part
  dirty : s.dirty = t.dirty
  listed : ∀ k, Listed s.m (s.lists k) (t.seq k)
  once : ∀ k c, c ∈ t.seq k ↔ c < N ∧ k = t.home c
  size : ∀ p, s.size p = ((List.range N).countP (fun c => t.part c == p) : Int)
  bug : s.bug = false

theorem exact_of_own {N : Nat} {s : Cache} {q : Key → List Nat} (h : Own N s q) :
    Exact N s ⟨s.part, s.dirty, q⟩ :=
  ⟨rfl, rfl, fun k => listed_of_bal (h.lists.bal k), h.mem, h.size, h.lists.bug⟩

theorem filter_not_mem {xs : List Nat} {c : Nat} (h : c ∉ xs) : xs.filter (· ≠ c) = xs := by
  rw [List.filter_eq_self]
  intro x hx
  exact decide_eq_true (fun e => h (by rw [← e]; exact hx))

theorem moveSeq_front {q : Key → List Nat} {c : Nat} {src dst : Key} (hc : c ∈ q src)
    (hd : ∀ k k' c, c ∈ q k → c ∈ q k' → k = k') (hn : (q src).Nodup) :
    moveSeq q c src dst = front q c dst := by
  have key : ∀ k, updSeq q src ((q src).erase c) k = (q k).filter (· ≠ c) := by
    intro k
    unfold updSeq
    by_cases e : k = src
    · rw [if_pos e, e, erase_filter hn]
    · rw [if_neg e, filter_not_mem (fun h => e (hd k src c h hc))]
  funext k
  unfold moveSeq front
  rw [updSeq]
  by_cases e : k = dst
  · rw [if_pos e, if_pos e, key, e]
  · rw [if_neg e, if_neg e, key]

theorem touchSeq_front {q : Key → List Nat} {c : Nat} {k0 : Key} (hc : c ∈ q k0)
    (hd : ∀ k k' c, c ∈ q k → c ∈ q k' → k = k') (hn : (q k0).Nodup) :
    updSeq q k0 (c :: (q k0).erase c) = front q c k0 := by
  funext k
  unfold updSeq front
  by_cases e : k = k0
  · rw [if_pos e, if_pos e, e, erase_filter hn]
  · rw [if_neg e, if_neg e, filter_not_mem (fun h => e (hd k k0 c h hc))]

/-- One operation of the code does what the specification says. -/
theorem own_step {N : Nat} {s : Cache} {q : Key → List Nat} (h : Own N s q) (o : COp)
    (ho : o.ok N s.part s.dirty) :
    ∃ q', Own N (o.run s) q' ∧
      SpecStep ⟨s.part, s.dirty, q⟩ o ⟨(o.run s).part, (o.run s).dirty, q'⟩ := by
  have mv : ∀ c, c < N → ∀ dst, moveSeq q c (s.keyOf c) dst = front q c dst := fun c hc dst =>
    moveSeq_front ((h.mem _ _).2 ⟨hc, rfl⟩) h.lists.disj (h.lists.bal _).nodup
  have tc : ∀ c, c < N → updSeq q (s.keyOf c) (c :: (q (s.keyOf c)).erase c) =
      front q c (s.keyOf c) := fun c hc =>
    touchSeq_front ((h.mem _ _).2 ⟨hc, rfl⟩) h.lists.disj (h.lists.bal _).nodup
  cases o with
  | repart c dst =>
    refine ⟨_, own_repart h c dst ho, .repart _ _ c dst ?_ rfl (mv c ho _)⟩
    rfl
  | touch c => exact ⟨_, own_touch h c ho, .touch _ _ c rfl rfl (tc c ho)⟩
  | hot c =>
    have hcm : c ∈ q (s.keyOf c) := (h.mem _ _).2 ⟨ho, rfl⟩
    obtain ⟨i, hi⟩ := List.getElem?_of_mem hcm
    have hl := listed_of_bal (h.lists.bal (s.keyOf c))
    have hiff : (s.m c).hot = true ↔ Spec.isHot ⟨s.part, s.dirty, q⟩ c := by
      rw [hl.hot i c hi, h.lists.track]
      unfold Spec.isHot Spec.home
      constructor
      · intro ⟨h1, h2⟩
        refine ⟨?_, i, hi, h2⟩
        simpa [Cache.keyOf, getKey] using h1
      · intro ⟨h1, j, hj, h2⟩
        have : i = j := idx_inj hl.nodup hi hj
        subst this
        exact ⟨by simpa [Cache.keyOf, getKey] using h1, h2⟩
    have ho' := own_hotLine h c ho
    by_cases hh : (s.m c).hot = true
    · rw [if_pos hh] at ho'
      refine ⟨q, ho', ?_⟩
      have e : COp.run (.hot c) s = s := by simp [COp.run, Cache.hotLine, hh]
      rw [e]
      exact .hotNo _ c (hiff.1 hh)
    · rw [if_neg hh] at ho'
      have e1 : (COp.run (.hot c) s).part = s.part := by
        simp [COp.run, Cache.hotLine, hh, Cache.touch, Cache.on]
      have e2 : (COp.run (.hot c) s).dirty = s.dirty := by
        simp [COp.run, Cache.hotLine, hh, Cache.touch, Cache.on]
      refine ⟨_, ho', ?_⟩
      rw [e1, e2]
      exact .hotYes _ _ c (fun e => hh (hiff.2 e)) rfl rfl (tc c ho)
  | clean c =>
    exact ⟨_, own_becomeClean h c ho.1 ho.2.1 ho.2.2, .clean _ _ c rfl rfl (mv c ho.1 _)⟩
  | dirty c =>
    exact ⟨_, own_becomeDirty h c ho.1 ho.2.1, .dirty _ _ c rfl rfl (mv c ho.1 _)⟩
  | forget c => exact ⟨q, own_forgetDirty h c ho, .forget _ _ c rfl rfl rfl⟩

/-- The cache right after attach (`to` always `none`) or recovery: lines `0..N-1` in some order,
each put on the free list or on the list of a class as dirty. -/
theorem own_fill (m : Nat → Meta) (N : Nat) (order : List Nat) (to : Nat → Option Nat)
    (hn : order.Nodup) (hall : ∀ c, c ∈ order ↔ c < N)
    (hto : ∀ c p, to c = some p → p ≠ freeId) :
    ∃ q, Own N ((Cache.fresh m).fill order to) q := by
  obtain ⟨q, h1, h2⟩ := placed_fold hn hto [] (Cache.fresh m) (fun _ => []) (placed_fresh m)
    (by simp) (by simp)
  refine ⟨q, lists_congr h1.lists rfl rfl rfl, ?_, ?_⟩
  · intro k c
    rw [h1.mem]
    simp only [List.append_nil, List.mem_reverse, hall]
    rfl
  · intro p
    have hperm : List.Perm order (List.range N) := by
      rw [List.perm_ext_iff_of_nodup hn List.nodup_range]
      intro c; rw [hall]; simp
    simp only [Cache.fill]
    congr 1
    rw [hperm.countP_eq]
    apply List.countP_congr
    intro c hc
    have hc' : c ∈ order.reverse ++ [] := by simpa using (hall c).2 (List.mem_range.1 hc)
    rw [h2 c hc']
    simp only [beq_iff_eq]
    exact ⟨Eq.symm, Eq.symm⟩

/-- A run of allowed operations after attach or recovery, together with the specification. -/
inductive CRun (N : Nat) : Cache → Spec → Prop where
  | init (m : Nat → Meta) (order : List Nat) (to : Nat → Option Nat) (t : Spec) :
      order.Nodup → (∀ c, c ∈ order ↔ c < N) → (∀ c p, to c = some p → p ≠ freeId) →
      Exact N ((Cache.fresh m).fill order to) t → CRun N ((Cache.fresh m).fill order to) t
  | step (s : Cache) (t t' : Spec) (o : COp) : CRun N s t → o.ok N s.part s.dirty →
      SpecStep t o t' → CRun N (o.run s) t'

/-- Lists that show a sequence determine it. -/
theorem chain_unique {f : Nat → Option Nat} {a : Option Nat} {xs ys : List Nat}
    (h1 : Chain f a xs) (h2 : Chain f a ys) : xs = ys := by
  induction xs generalizing a ys with
  | nil =>
    cases ys with
    | nil => rfl
    | cons y ys =>
      have e1 : a = none := h1
      have e2 : a = some y := h2.1
      rw [e1] at e2; exact absurd e2 (by simp)
  | cons x xs ih =>
    cases ys with
    | nil =>
      have e1 : a = some x := h1.1
      have e2 : a = none := h2
      rw [e1] at e2; exact absurd e2 (by simp)
    | cons y ys =>
      have e : x = y := Option.some.inj (h1.1.symm.trans h2.1)
      subst e
      rw [ih h1.2 h2.2]

/-- The result of an operation is determined by the specification. -/
theorem specStep_det {t a b : Spec} {o : COp} (h1 : SpecStep t o a) (h2 : SpecStep t o b) :
    a = b := by
  have hm : ∀ x y : Spec, x.part = y.part → x.dirty = y.dirty → x.seq = y.seq → x = y := by
    intro x y e1 e2 e3
    cases x; cases y; simp_all
  have hh : ∀ (x y : Spec) (c : Nat), x.part = y.part → x.dirty = y.dirty →
      x.home c = y.home c := by
    intro x y c e1 e2
    simp [Spec.home, e1, e2]
  have fr : ∀ (x y : Spec) (c : Nat) (p : Nat → Nat) (d : Nat → Bool), x.part = p → x.dirty = d →
      x.seq = front t.seq c (x.home c) → y.part = p → y.dirty = d →
      y.seq = front t.seq c (y.home c) → x = y := by
    intro x y c p d p1 d1 s1 p2 d2 s2
    refine hm x y (p1.trans p2.symm) (d1.trans d2.symm) ?_
    rw [s1, s2, hh x y c (p1.trans p2.symm) (d1.trans d2.symm)]
  cases h1 with
  | repart _ c dst p1 d1 s1 => cases h2 with | repart _ _ _ p2 d2 s2 => exact fr _ _ _ _ _ p1 d1 s1 p2 d2 s2
  | touch _ c p1 d1 s1 => cases h2 with | touch _ _ p2 d2 s2 => exact fr _ _ _ _ _ p1 d1 s1 p2 d2 s2
  | hotNo c n => cases h2 with
    | hotNo => rfl
    | hotYes _ _ y => exact absurd n y
  | hotYes _ c y p1 d1 s1 => cases h2 with
    | hotNo _ n => exact absurd n y
    | hotYes _ _ _ p2 d2 s2 => exact fr _ _ _ _ _ p1 d1 s1 p2 d2 s2
  | clean _ c p1 d1 s1 => cases h2 with | clean _ _ p2 d2 s2 => exact fr _ _ _ _ _ p1 d1 s1 p2 d2 s2
  | dirty _ c p1 d1 s1 => cases h2 with | dirty _ _ p2 d2 s2 => exact fr _ _ _ _ _ p1 d1 s1 p2 d2 s2
  | forget _ c p1 d1 s1 => cases h2 with
    | forget _ _ p2 d2 s2 => exact hm _ _ (p1.trans p2.symm) (d1.trans d2.symm) (s1.trans s2.symm)

/-- **C05/C30.**  Whatever sequence of insertions, evictions, invalidations, re-classifications,
touches and dirtiness changes a cache of any size goes through: every list is exactly the
sequence of the specification, each line is on exactly the list of its class (or free list) and
dirtiness, each reported size is the number of lines, and no assertion fired. -/
theorem cache_exact (N : Nat) (s : Cache) (t : Spec) (h : CRun N s t) : Exact N s t := by
  have : ∃ q, Own N s q ∧ t = ⟨s.part, s.dirty, q⟩ := by
    induction h with
    | init m order to t hn hall hto hex =>
      obtain ⟨q, ho⟩ := own_fill m N order to hn hall hto
      refine ⟨q, ho, ?_⟩
      have hseq : t.seq = q := by
        funext k
        exact chain_unique (hex.listed k).fwd (listed_of_bal (ho.lists.bal k)).fwd
      have h1 := hex.part
      have h2 := hex.dirty
      cases t
      simp only at h1 h2 hseq
      rw [h1, h2, hseq]
    | step s t t' o _ hok hst ih =>
      obtain ⟨q, ho, rfl⟩ := ih
      obtain ⟨q', ho', hst'⟩ := own_step ho o hok
      exact ⟨q', ho', specStep_det hst hst'⟩
  obtain ⟨q, ho, rfl⟩ := this
  exact exact_of_own ho

/-- The starting states of `CRun` exist for every order and every choice of kept lines. -/
theorem cache_start (m : Nat → Meta) (N : Nat) (order : List Nat) (to : Nat → Option Nat)
    (hn : order.Nodup) (hall : ∀ c, c ∈ order ↔ c < N)
    (hto : ∀ c p, to c = some p → p ≠ freeId) :
    ∃ t, CRun N ((Cache.fresh m).fill order to) t := by
  obtain ⟨q, ho⟩ := own_fill m N order to hn hall hto
  exact ⟨_, .init m order to _ hn hall hto (exact_of_own ho)⟩

/-- Every allowed operation can be taken: the specification never blocks the code. -/
theorem cache_progress (N : Nat) (s : Cache) (t : Spec) (h : CRun N s t) (o : COp)
    (ho : o.ok N s.part s.dirty) : ∃ t', SpecStep t o t' ∧ CRun N (o.run s) t' := by
  have hex := cache_exact N s t h
  have : ∃ t', SpecStep t o t' := by
    have mk : ∀ (p : Nat → Nat) (d : Nat → Bool) (c : Nat), ∃ t' : Spec, t'.part = p ∧ t'.dirty = d ∧
        t'.seq = front t.seq c (t'.home c) := fun p d c =>
      ⟨⟨p, d, front t.seq c (Spec.home ⟨p, d, fun _ => []⟩ c)⟩, rfl, rfl, rfl⟩
    cases o with
    | repart c dst => obtain ⟨t', a, b, e⟩ := mk (fupd t.part c dst) t.dirty c
                      exact ⟨t', .repart _ _ _ _ a b e⟩
    | touch c => obtain ⟨t', a, b, e⟩ := mk t.part t.dirty c
                 exact ⟨t', .touch _ _ _ a b e⟩
    | hot c =>
      by_cases hh : t.isHot c
      · exact ⟨t, .hotNo _ _ hh⟩
      · obtain ⟨t', a, b, e⟩ := mk t.part t.dirty c
        exact ⟨t', .hotYes _ _ _ hh a b e⟩
    | clean c => obtain ⟨t', a, b, e⟩ := mk t.part (fupd t.dirty c false) c
                 exact ⟨t', .clean _ _ _ a b e⟩
    | dirty c => obtain ⟨t', a, b, e⟩ := mk t.part (fupd t.dirty c true) c
                 exact ⟨t', .dirty _ _ _ a b e⟩
    | forget c => exact ⟨⟨t.part, fupd t.dirty c false, t.seq⟩, .forget _ _ _ rfl rfl rfl⟩
  obtain ⟨t', ht'⟩ := this
  exact ⟨t', ht', .step s t t' o h ho ht'⟩

/-- **C30.**  Class sizes and free lines always add up to the number of lines: over any set of
partitions that contains those in use the sum of the reported sizes is the size of the cache. -/
theorem sizes_sum (N : Nat) (s : Cache) (t : Spec) (h : CRun N s t) (ps : List Nat)
    (hp : ps.Nodup) (hall : ∀ c, c < N → s.part c ∈ ps) :
    (ps.map s.size).sum = N := by
  have hex := cache_exact N s t h
  rw [hex.part] at hall
  have hs : ps.map s.size = ps.map (fun p => ((List.range N).countP (fun c => t.part c == p) : Int)) :=
    List.map_congr_left (fun p _ => hex.size p)
  rw [hs]
  have cnt : ∀ (n : Nat) (f : Nat → Nat), (∀ c, c < n → f c ∈ ps) →
      (ps.map (fun p => ((List.range n).countP (fun c => f c == p) : Int))).sum = n := by
    intro n f
    induction n with
    | zero =>
      intro _
      clear hp hall hs
      induction ps with
      | nil => rfl
      | cons a as ih => simpa using ih
    | succ n ih =>
      intro hf
      have h1 := ih (fun c hc => hf c (by omega))
      have one : ∀ (qs : List Nat) (a : Nat), qs.Nodup → a ∈ qs →
          (qs.map (fun p => (if a = p then 1 else 0 : Int))).sum = 1 := by
        intro qs a
        induction qs with
        | nil => intro _ h; exact absurd h (by simp)
        | cons b bs ih2 =>
          intro hn hm
          rw [List.nodup_cons] at hn
          simp only [List.map_cons, List.sum_cons]
          by_cases e : a = b
          · subst e
            have z : ∀ (rs : List Nat), a ∉ rs →
                (rs.map (fun p => (if a = p then 1 else 0 : Int))).sum = 0 := by
              intro rs
              induction rs with
              | nil => intro _; rfl
              | cons r rs ih3 =>
                intro h
                simp only [List.mem_cons, not_or] at h
                simp only [List.map_cons, List.sum_cons, if_neg h.1]
                rw [ih3 h.2]; rfl
            rw [z bs hn.1]; simp
          · rw [ih2 hn.2 (by simpa [e] using hm), if_neg e]; rfl
      have add : ∀ (qs : List Nat) (g k : Nat → Int),
          (qs.map (fun p => g p + k p)).sum = (qs.map g).sum + (qs.map k).sum := by
        intro qs g k
        induction qs with
        | nil => rfl
        | cons a as ih4 =>
          simp only [List.map_cons, List.sum_cons]
          rw [ih4]; omega
      have e : (fun p => ((List.range (n + 1)).countP (fun c => f c == p) : Int)) =
          fun p => ((List.range n).countP (fun c => f c == p) : Int) + (if f n = p then 1 else 0) := by
        funext p
        rw [List.range_succ, List.countP_append]
        by_cases e : f n = p
        · simp [e]
        · simp [e]
      rw [e, add, h1, one ps (f n) hp (hf n (by omega))]
      omega
  exact cnt N t.part hall

/-- Without recovery every line starts free and clean. -/
theorem fill_none (m : Nat → Meta) (order : List Nat) :
    ((Cache.fresh m).fill order (fun _ => none)).part = (fun _ => freeId) ∧
    ((Cache.fresh m).fill order (fun _ => none)).dirty = fun _ => false := by
  have : ∀ (l : List Nat) (s : Cache), s.part = (fun _ => freeId) → s.dirty = (fun _ => false) →
      (l.foldl (fun s c => s.place c none) s).part = (fun _ => freeId) ∧
      (l.foldl (fun s c => s.place c none) s).dirty = fun _ => false := by
    intro l
    induction l with
    | nil => intro s h h'; exact ⟨h, h'⟩
    | cons a l ih =>
      intro s h h'
      refine ih _ ?_ ?_
      · simp only [Cache.place, Cache.on, h]
        funext x; split <;> rfl
      · simp only [Cache.place, Cache.on, h']
        funext x; split <;> rfl
  exact this order (Cache.fresh m) rfl rfl

/-- A cache of 100 lines just attached; line 40 goes to class 3, becomes dirty and is cleaned,
line 8 goes to class 3 and is touched. -/
example (m : Nat → Meta) : ∃ s t, CRun 100 s t ∧ s.part 40 = 3 ∧ s.part 8 = 3 ∧ s.size 3 = 2 ∧
    s.size freeId = 98 := by
  have hto : ∀ (c p : Nat), (fun _ : Nat => (none : Option Nat)) c = some p → p ≠ freeId :=
    fun _ _ h => absurd h (by simp)
  obtain ⟨t, h⟩ := cache_start m 100 (List.range 100) (fun _ => none) List.nodup_range
    (by simp) hto
  obtain ⟨hp, hd⟩ := fill_none m (List.range 100)
  generalize (Cache.fresh m).fill (List.range 100) (fun _ => none) = s0 at h hp hd
  obtain ⟨t1, _, h1⟩ := cache_progress _ _ _ h (.repart 40 3) (by show 40 < 100; omega)
  obtain ⟨t2, _, h2⟩ := cache_progress _ _ _ h1 (.dirty 40)
    ⟨by omega, by simp [COp.run, Cache.repart, Cache.move, Cache.on, hd],
      by simp [COp.run, Cache.repart, freeId]⟩
  obtain ⟨t3, _, h3⟩ := cache_progress _ _ _ h2 (.repart 8 3) (by show 8 < 100; omega)
  obtain ⟨t4, _, h4⟩ := cache_progress _ _ _ h3 (.touch 8) (by show 8 < 100; omega)
  have e : (COp.run (.touch 8) (COp.run (.repart 8 3) (COp.run (.dirty 40)
      (COp.run (.repart 40 3) s0)))).part = fun c => if c = 8 then 3 else if c = 40 then 3 else freeId := by
    funext c
    simp [COp.run, Cache.touch, Cache.on, Cache.repart, Cache.becomeDirty, Cache.move, hp]
  have hex := cache_exact _ _ _ h4
  refine ⟨_, t4, h4, by rw [e]; rfl, by rw [e]; rfl, ?_, ?_⟩
  · rw [hex.size, ← hex.part, e]; decide
  · rw [hex.size, ← hex.part, e]; decide

end Verif.Lru
