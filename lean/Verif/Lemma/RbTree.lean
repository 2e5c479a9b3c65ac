import Verif.Model.RbTree
import Mathlib.Tactic.ByContra
import Mathlib.Data.List.Nodup

/-! # The tree that the pointers of the red-black tree represent -/

namespace Verif.RbTree

/-- A binary tree with coloured nodes. -/
inductive T
  | leaf
  | node (c : Bool) (l : T) (x : Nat) (r : T)
deriving DecidableEq

/-- A node on the path from the place of interest to the root: the place is in its left or right
subtree. -/
inductive Fr
  | L (c : Bool) (x : Nat) (r : T)
  | R (c : Bool) (l : T) (x : Nat)
deriving DecidableEq

open T Fr

/-- The nodes from left to right. -/
def T.toList : T → List Nat
  | leaf => []
  | node _ l x r => l.toList ++ x :: r.toList

/-- The nodes to the left of the place. -/
def lids : List Fr → List Nat
  | [] => []
  | L _ _ _ :: k => lids k
  | R _ l x :: k => lids k ++ (l.toList ++ [x])

/-- The nodes to the right of the place. -/
def rids : List Fr → List Nat
  | [] => []
  | L _ x r :: k => x :: (r.toList ++ rids k)
  | R _ _ _ :: k => rids k

/-- All nodes, from left to right. -/
def ids (k : List Fr) (t : T) : List Nat := lids k ++ (t.toList ++ rids k)

theorem ids_left (k c l x r) : ids (L c x r :: k) l = ids k (node c l x r) := by
  simp [ids, lids, rids, T.toList]

theorem ids_right (k c l x r) : ids (R c l x :: k) r = ids k (node c l x r) := by
  simp [ids, lids, rids, T.toList]

/-- The tree obtained by putting a tree in the place. -/
def plug : List Fr → T → T
  | [], t => t
  | L c x r :: k, t => plug k (node c t x r)
  | R c l x :: k, t => plug k (node c l x t)

theorem ids_plug : ∀ k t, ids [] (plug k t) = ids k t
  | [], t => rfl
  | L c x r :: k, t => by rw [plug, ids_plug k, ids_left]
  | R c l x :: k, t => by rw [plug, ids_plug k, ids_right]

def rootRed : T → Bool
  | leaf => false
  | node c _ _ _ => c

/-- Every path has the same number `n` of black nodes and no red node has a red child. -/
def RB : T → Nat → Prop
  | leaf, n => n = 0
  | node true l _ r, n => RB l n ∧ RB r n ∧ rootRed l = false ∧ rootRed r = false
  | node false _ _ _, 0 => False
  | node false l _ r, n + 1 => RB l n ∧ RB r n

/-- Whether the place must not have a red tree. -/
def pcol : List Fr → Bool
  | [] => true
  | L c _ _ :: _ => c
  | R c _ _ :: _ => c

/-- The surroundings fit a tree with `n` black nodes on every path. -/
def RBC : List Fr → Nat → Prop
  | [], _ => True
  | L true _ r :: k, n => RB r n ∧ rootRed r = false ∧ pcol k = false ∧ RBC k n
  | L false _ r :: k, n => RB r n ∧ RBC k (n + 1)
  | R true l _ :: k, n => RB l n ∧ rootRed l = false ∧ pcol k = false ∧ RBC k n
  | R false l _ :: k, n => RB l n ∧ RBC k (n + 1)

/-- A red-black tree. -/
def Good (k : List Fr) (t : T) : Prop :=
  ∃ n, RBC k n ∧ RB t n ∧ (rootRed t = true → pcol k = false)

theorem Good_left {k c l x r} : Good (L c x r :: k) l ↔ Good k (node c l x r) := by
  constructor
  · rintro ⟨n, h1, h2, h3⟩
    cases c
    · simp only [RBC] at h1
      exact ⟨n + 1, h1.2, ⟨h2, h1.1⟩, by simp [rootRed]⟩
    · simp only [RBC, pcol] at h1 h3
      refine ⟨n, h1.2.2.2, ⟨h2, h1.1, ?_, h1.2.1⟩, fun _ => h1.2.2.1⟩
      cases hl : rootRed l <;> simp_all
  · rintro ⟨n, h1, h2, h3⟩
    cases c
    · cases n with
      | zero => simp [RB] at h2
      | succ n =>
        simp only [RB] at h2
        exact ⟨n, ⟨h2.2, h1⟩, h2.1, by simp [pcol]⟩
    · simp only [RB, rootRed] at h2 h3
      exact ⟨n, ⟨h2.2.1, h2.2.2.2, h3 trivial, h1⟩, h2.1, fun e => by cases h2.2.2.1.symm.trans e⟩

theorem Good_right {k c l x r} : Good (R c l x :: k) r ↔ Good k (node c l x r) := by
  constructor
  · rintro ⟨n, h1, h2, h3⟩
    cases c
    · simp only [RBC] at h1
      exact ⟨n + 1, h1.2, ⟨h1.1, h2⟩, by simp [rootRed]⟩
    · simp only [RBC, pcol] at h1 h3
      refine ⟨n, h1.2.2.2, ⟨h1.1, h2, h1.2.1, ?_⟩, fun _ => h1.2.2.1⟩
      cases hl : rootRed r <;> simp_all
  · rintro ⟨n, h1, h2, h3⟩
    cases c
    · cases n with
      | zero => simp [RB] at h2
      | succ n =>
        simp only [RB] at h2
        exact ⟨n, ⟨h2.1, h1⟩, h2.2, by simp [pcol]⟩
    · simp only [RB, rootRed] at h2 h3
      exact ⟨n, ⟨h2.1, h2.2.2.1, h3 trivial, h1⟩, h2.2.1, fun e => by cases h2.2.2.2.symm.trans e⟩

theorem Good_plug : ∀ k t, Good [] (plug k t) ↔ Good k t
  | [], t => Iff.rfl
  | L c x r :: k, t => by rw [plug, Good_plug k, Good_left]
  | R c l x :: k, t => by rw [plug, Good_plug k, Good_right]

/-! ## Representation -/

/-- The tree at pointer `q` with parent pointer `p`. -/
def Repr (h : Heap) : Option Nat → Option Nat → T → Prop
  | _, q, leaf => q = none
  | p, q, node c l x r =>
    q = some x ∧ h.parent x = p ∧ h.red x = c ∧ Repr h (some x) (h.left x) l ∧
      Repr h (some x) (h.right x) r

/-- The surroundings of a place where the pointer `q` with parent pointer `p` is. -/
def ReprC (h : Heap) : List Fr → Option Nat → Option Nat → Prop
  | [], q, p => h.root = q ∧ p = none
  | L c x r :: k, q, p =>
    p = some x ∧ h.left x = q ∧ h.red x = c ∧ Repr h (some x) (h.right x) r ∧
      ReprC h k (some x) (h.parent x)
  | R c l x :: k, q, p =>
    p = some x ∧ h.right x = q ∧ h.red x = c ∧ Repr h (some x) (h.left x) l ∧
      ReprC h k (some x) (h.parent x)

/-- The heap has the tree `t` in the surroundings `k`, all nodes distinct. -/
structure Rep (h : Heap) (k : List Fr) (t : T) : Prop where
  ex : ∃ q p, ReprC h k q p ∧ Repr h p q t
  nodup : (ids k t).Nodup

theorem Rep_left {h k c l x r} : Rep h (L c x r :: k) l ↔ Rep h k (node c l x r) := by
  constructor
  · rintro ⟨⟨q, p, h1, h2⟩, h3⟩
    simp only [ReprC] at h1
    obtain ⟨rfl, rfl, h4, h5, h6⟩ := h1
    exact ⟨⟨_, _, h6, rfl, rfl, h4, h2, h5⟩, by rwa [← ids_left]⟩
  · rintro ⟨⟨q, p, h1, h2⟩, h3⟩
    simp only [Repr] at h2
    obtain ⟨rfl, rfl, h4, h5, h6⟩ := h2
    exact ⟨⟨_, _, ⟨rfl, rfl, h4, h6, h1⟩, h5⟩, by rwa [ids_left]⟩

theorem Rep_right {h k c l x r} : Rep h (R c l x :: k) r ↔ Rep h k (node c l x r) := by
  constructor
  · rintro ⟨⟨q, p, h1, h2⟩, h3⟩
    simp only [ReprC] at h1
    obtain ⟨rfl, rfl, h4, h5, h6⟩ := h1
    exact ⟨⟨_, _, h6, rfl, rfl, h4, h5, h2⟩, by rwa [← ids_right]⟩
  · rintro ⟨⟨q, p, h1, h2⟩, h3⟩
    simp only [Repr] at h2
    obtain ⟨rfl, rfl, h4, h5, h6⟩ := h2
    exact ⟨⟨_, _, ⟨rfl, rfl, h4, h5, h1⟩, h6⟩, by rwa [ids_right]⟩

theorem Rep_plug {h} : ∀ {k t}, Rep h [] (plug k t) ↔ Rep h k t
  | [], t => Iff.rfl
  | L c x r :: k, t => by rw [plug, Rep_plug, Rep_left]
  | R c l x :: k, t => by rw [plug, Rep_plug, Rep_right]

/-- The fields of `x` are the same in both heaps. -/
def Same (h h' : Heap) (x : Nat) : Prop :=
  h'.left x = h.left x ∧ h'.right x = h.right x ∧ h'.parent x = h.parent x ∧ h'.red x = h.red x

theorem Repr_congr {h h' : Heap} : ∀ {t p q}, (∀ x ∈ t.toList, Same h h' x) →
    Repr h p q t → Repr h' p q t
  | leaf, _, _, _, h2 => h2
  | node c l x r, p, q, hs, h2 => by
    simp only [Repr] at h2 ⊢
    obtain ⟨a, b, c, d⟩ := hs x (by simp [T.toList])
    rw [a, b, c, d]
    exact ⟨h2.1, h2.2.1, h2.2.2.1,
      Repr_congr (fun y hy => hs y (by simp [T.toList, hy])) h2.2.2.2.1,
      Repr_congr (fun y hy => hs y (by simp [T.toList, hy])) h2.2.2.2.2⟩

/-- The parent of the root of the tree may change. -/
theorem Repr_reparent {h h' : Heap} {t p p' q} (hn : t.toList.Nodup)
    (hs : ∀ x ∈ t.toList, q ≠ some x → Same h h' x)
    (hq : ∀ x, q = some x → h'.left x = h.left x ∧ h'.right x = h.right x ∧ h'.red x = h.red x ∧
      h'.parent x = p')
    (h2 : Repr h p q t) : Repr h' p' q t := by
  cases t with
  | leaf => exact h2
  | node c l x r =>
    simp only [Repr] at h2 ⊢
    obtain ⟨rfl, h3, h4, h5, h6⟩ := h2
    obtain ⟨a, b, c, d⟩ := hq x rfl
    rw [a, b, c, d]
    simp only [T.toList, List.nodup_append, List.nodup_cons] at hn
    refine ⟨rfl, rfl, h4, Repr_congr (fun y hy => hs y ?_ ?_) h5,
      Repr_congr (fun y hy => hs y ?_ ?_) h6⟩
    · simp [T.toList, hy]
    · rintro ⟨⟩; exact hn.2.2 _ hy x (by simp) rfl
    · simp [T.toList, hy]
    · rintro ⟨⟩; exact hn.2.1.1 hy

theorem ReprC_congr {h h' : Heap} : ∀ {k q p}, (∀ x ∈ lids k ++ rids k, Same h h' x) →
    h'.root = h.root → ReprC h k q p → ReprC h' k q p
  | [], _, _, _, hr, h2 => by rw [ReprC, hr]; exact h2
  | L c x r :: k, q, p, hs, hr, h2 => by
    simp only [ReprC] at h2 ⊢
    obtain ⟨a, b, c, d⟩ := hs x (by simp [rids])
    rw [a, b, c, d]
    exact ⟨h2.1, h2.2.1, h2.2.2.1,
      Repr_congr (fun y hy => hs y (by simp [rids, hy])) h2.2.2.2.1,
      ReprC_congr (fun y hy => hs y (by simp [rids, lids] at hy ⊢; grind)) hr h2.2.2.2.2⟩
  | R c l x :: k, q, p, hs, hr, h2 => by
    simp only [ReprC] at h2 ⊢
    obtain ⟨a, b, c, d⟩ := hs x (by simp [lids])
    rw [a, b, c, d]
    exact ⟨h2.1, h2.2.1, h2.2.2.1,
      Repr_congr (fun y hy => hs y (by simp [lids, hy])) h2.2.2.2.1,
      ReprC_congr (fun y hy => hs y (by simp [rids, lids] at hy ⊢; grind)) hr h2.2.2.2.2⟩

theorem Repr_root {h p q t} (h1 : Repr h p q t) : ∀ x, q = some x → x ∈ t.toList := by
  cases t with
  | leaf => simp only [Repr] at h1; subst h1; simp
  | node c l x r => simp only [Repr] at h1; obtain ⟨rfl, _⟩ := h1; simp [T.toList]

/-- Putting another pointer in the place. -/
theorem ReprC_update {h : Heap} {k p old} (new : Option Nat) (ho : old ∉ lids k ++ rids k)
    (hn : (lids k ++ rids k).Nodup)
    (h1 : ReprC h k (some old) p) : ReprC (updateParent h p old new) k new p := by
  cases k with
  | nil =>
    simp only [ReprC] at h1 ⊢
    obtain ⟨h1, rfl⟩ := h1
    simp [updateParent, h1]
  | cons f k =>
    cases f with
    | L c x r =>
      simp only [ReprC] at h1 ⊢
      obtain ⟨rfl, h2, h3, h4, h5⟩ := h1
      have hx : x ∉ r.toList ∧ x ∉ lids k ++ rids k := by
        simp only [lids, rids] at hn; grind
      simp only [updateParent, if_pos h2, setLeft, upd]
      refine ⟨trivial, by simp, h3, Repr_congr (h := h) ?_ h4, ReprC_congr (h := h) ?_ rfl h5⟩
      · intro y hy; simp only [Same]; simp only [and_true]; rw [upd, if_neg (by grind)]
      · intro y hy; simp only [Same]; simp only [and_true]; rw [upd, if_neg (by grind)]
    | R c l x =>
      simp only [ReprC] at h1 ⊢
      obtain ⟨rfl, h2, h3, h4, h5⟩ := h1
      have hx : x ∉ l.toList ∧ x ∉ lids k ++ rids k := by
        simp only [lids, rids] at hn; grind
      have h6 : h.left x ≠ some old := by
        intro e
        have := Repr_root h4 old e
        apply ho; simp [lids, this]
      simp only [updateParent, if_pos h2, setRight, if_neg h6]
      refine ⟨trivial, by simp [upd], h3, Repr_congr (h := h) ?_ h4, ReprC_congr (h := h) ?_ rfl h5⟩
      · intro y hy; simp only [Same]; simp only [true_and, and_true]; rw [upd, if_neg (by grind)]
      · intro y hy; simp only [Same]; simp only [true_and, and_true]; rw [upd, if_neg (by grind)]

/-- What an operation on the links leaves as it was: everything about the nodes that are not in
`S`, the keys and the rings. -/
structure Frame (h h' : Heap) (S : List Nat) : Prop where
  out : ∀ x, x ∉ S → h'.left x = h.left x ∧ h'.right x = h.right x ∧ h'.parent x = h.parent x
  key : h'.key = h.key
  dups : h'.dups = h.dups
  head : h'.head = h.head

theorem Frame.refl (h S) : Frame h h S := ⟨fun _ _ => ⟨rfl, rfl, rfl⟩, rfl, rfl, rfl⟩

theorem Frame.trans {h1 h2 h3 S} (a : Frame h1 h2 S) (b : Frame h2 h3 S) : Frame h1 h3 S := by
  refine ⟨fun x hx => ?_, b.key.trans a.key, b.dups.trans a.dups, b.head.trans a.head⟩
  have := a.out x hx
  have := b.out x hx
  grind

theorem ReprC_parent {h k q p} (h1 : ReprC h k q p) : ∀ x, p = some x → x ∈ lids k ++ rids k := by
  cases k with
  | nil => simp only [ReprC] at h1; obtain ⟨_, rfl⟩ := h1; simp
  | cons f k =>
    cases f <;> (simp only [ReprC] at h1; obtain ⟨rfl, _⟩ := h1; simp [lids, rids])

theorem updateParent_parent (h p o n) : (updateParent h p o n).parent = h.parent := by
  unfold updateParent setLeft setRight; split <;> split <;> (try split) <;> rfl
theorem updateParent_red (h p o n) : (updateParent h p o n).red = h.red := by
  unfold updateParent setLeft setRight; split <;> split <;> (try split) <;> rfl
theorem updateParent_key (h p o n) : (updateParent h p o n).key = h.key := by
  unfold updateParent setLeft setRight; split <;> split <;> (try split) <;> rfl
theorem updateParent_dups (h p o n) : (updateParent h p o n).dups = h.dups := by
  unfold updateParent setLeft setRight; split <;> split <;> (try split) <;> rfl
theorem updateParent_head (h p o n) : (updateParent h p o n).head = h.head := by
  unfold updateParent setLeft setRight; split <;> split <;> (try split) <;> rfl
theorem updateParent_left (h p o n z) (hz : p ≠ some z) :
    (updateParent h p o n).left z = h.left z := by
  unfold updateParent setLeft setRight; split <;> split <;> (try split) <;> grind [upd]
theorem updateParent_right (h p o n z) (hz : p ≠ some z) :
    (updateParent h p o n).right z = h.right z := by
  unfold updateParent setLeft setRight; split <;> split <;> (try split) <;> grind [upd]

theorem setParentOpt_left (h p x) : (setParentOpt h p x).left = h.left := by
  unfold setParentOpt setParent; split <;> rfl
theorem setParentOpt_right (h p x) : (setParentOpt h p x).right = h.right := by
  unfold setParentOpt setParent; split <;> rfl
theorem setParentOpt_red (h p x) : (setParentOpt h p x).red = h.red := by
  unfold setParentOpt setParent; split <;> rfl
theorem setParentOpt_root (h p x) : (setParentOpt h p x).root = h.root := by
  unfold setParentOpt setParent; split <;> rfl
theorem setParentOpt_key (h p x) : (setParentOpt h p x).key = h.key := by
  unfold setParentOpt setParent; split <;> rfl
theorem setParentOpt_dups (h p x) : (setParentOpt h p x).dups = h.dups := by
  unfold setParentOpt setParent; split <;> rfl
theorem setParentOpt_head (h p x) : (setParentOpt h p x).head = h.head := by
  unfold setParentOpt setParent; split <;> rfl
theorem setParentOpt_parent (h p x z) :
    (setParentOpt h p x).parent z = if p = some z then some x else h.parent z := by
  unfold setParentOpt setParent; split <;> grind [upd]

theorem rotateLeft_spec {h : Heap} {x y : Nat} {p : Option Nat} (hxy : h.right x = some y)
    (hp : h.parent x = p) (n1 : x ≠ y) (n2 : h.left y ≠ some x) :
    ∃ h3 h', rotateLeft h x = some h' ∧
      (∀ z, h3.left z = h.left z) ∧ (∀ z, h3.right z = if z = x then h.left y else h.right z) ∧
      (∀ z, h3.parent z = if z = y then p else if h.left y = some z then some x else h.parent z) ∧
      h3.root = h.root ∧ (∀ z, h3.red z = h.red z) ∧
      (∀ z, h'.left z = if z = y then some x else (updateParent h3 p x (some y)).left z) ∧
      (∀ z, h'.right z = (updateParent h3 p x (some y)).right z) ∧
      (∀ z, h'.parent z = if z = x then some y else h3.parent z) ∧
      h'.root = (updateParent h3 p x (some y)).root ∧ (∀ z, h'.red z = h.red z) ∧
      h'.key = h.key ∧ h'.dups = h.dups ∧ h'.head = h.head := by
  obtain ⟨h3, e3⟩ : ∃ h3, h3 = setParent (setParentOpt (setRight h x (h.left y))
      ((setRight h x (h.left y)).right x) x) y
      ((setParentOpt (setRight h x (h.left y)) ((setRight h x (h.left y)).right x) x).parent x) := ⟨_, rfl⟩
  have e0 : (setRight h x (h.left y)).right x = h.left y := by simp [setRight, upd]
  have hpx : h3.parent x = p := by
    rw [e3, e0]
    simp only [setParent, upd, if_neg n1, setParentOpt_parent, if_neg n2]
    simpa [setRight] using hp
  have k1 : h3.key = h.key := by rw [e3]; simp [setParent, setParentOpt_key, setRight]
  have k2 : h3.dups = h.dups := by rw [e3]; simp [setParent, setParentOpt_dups, setRight]
  have k3 : h3.head = h.head := by rw [e3]; simp [setParent, setParentOpt_head, setRight]
  have k4 : h3.red = h.red := by rw [e3]; simp [setParent, setParentOpt_red, setRight]
  refine ⟨h3, setParent (setLeft (updateParent h3 p x (some y)) y (some x)) x (some y), ?_, ?_, ?_, ?_,
    ?_, ?_, ?_, ?_, ?_, ?_, ?_, ?_, ?_, ?_⟩
  · simp only [rotateLeft, hxy, ← e3, hpx]
  · intro z; rw [e3]; simp [setParent, setParentOpt_left, setRight]
  · intro z; rw [e3]; simp [setParent, setParentOpt_right, setRight, upd]
  · intro z; rw [e3, e0]
    simp only [setParent, upd, setParentOpt_parent, if_neg n2]
    simp [setRight, hp]
  · rw [e3]; simp [setParent, setParentOpt_root, setRight]
  · intro z; rw [k4]
  · intro z; simp [setParent, setLeft, upd]
  · intro z; simp [setParent, setLeft]
  · intro z; simp [setParent, setLeft, upd, updateParent_parent]
  · simp [setParent, setLeft]
  · intro z; simp [setParent, setLeft, updateParent_red, k4]
  · simp [setParent, setLeft, updateParent_key, k1]
  · simp [setParent, setLeft, updateParent_dups, k2]
  · simp [setParent, setLeft, updateParent_head, k3]

theorem rotateLeft_rep {h k c a x d b y e} (hr : Rep h k (node c a x (node d b y e))) :
    ∃ h', rotateLeft h x = some h' ∧ Rep h' k (node d (node c a x b) y e) ∧
      Frame h h' (ids k (node c a x (node d b y e))) := by
  obtain ⟨⟨q, p, h1, h2⟩, hn⟩ := hr
  simp only [Repr] at h2
  obtain ⟨rfl, hp, hc, ha, hxy, hyp, hd, hb, he⟩ := h2
  have hnd := hn
  simp only [ids, T.toList, List.nodup_append, List.nodup_cons, List.mem_append,
    List.mem_cons] at hn
  have hpk := ReprC_parent h1
  have hbr := Repr_root hb
  have nx : x ≠ y ∧ x ∉ a.toList ∧ x ∉ b.toList ∧ x ∉ e.toList ∧ x ∉ lids k ++ rids k := by
    clear hpk hbr hnd; grind
  have ny : y ∉ a.toList ∧ y ∉ b.toList ∧ y ∉ e.toList ∧ y ∉ lids k ++ rids k := by
    clear hpk hbr hnd; grind
  have nb : ∀ z ∈ b.toList, z ∉ a.toList ∧ z ∉ e.toList ∧ z ∉ lids k ++ rids k := by
    clear hpk hbr hnd; grind
  have nk : ∀ z ∈ lids k ++ rids k, z ∉ a.toList ∧ z ∉ e.toList := by
    clear hpk hbr hnd; grind
  have hkn : (lids k ++ rids k).Nodup := by
    clear hpk hbr hnd; rw [List.nodup_append]; grind
  have hbn : b.toList.Nodup := by clear hpk hbr hnd; grind
  have n2 : h.left y ≠ some x := fun e => nx.2.2.1 (hbr x e)
  have px : p ≠ some x := fun e => nx.2.2.2.2 (hpk x e)
  have py : p ≠ some y := fun e => ny.2.2.2 (hpk y e)
  clear hn
  obtain ⟨h3, h', e, g1, g2, g3, g4, g5, f1, f2, f3, f4, f5, f6, f7, f8⟩ := rotateLeft_spec hxy hp nx.1 n2
  refine ⟨h', e, ⟨⟨some y, p, ?_, rfl, ?_, ?_, ⟨?_, ?_, ?_, ?_, ?_⟩, ?_⟩, ?_⟩, ?_⟩
  · refine ReprC_congr (h := updateParent h3 p x (some y)) ?_ f4 ?_
    · intro z hz
      have : z ≠ x := by rintro rfl; exact nx.2.2.2.2 hz
      have : z ≠ y := by rintro rfl; exact ny.2.2.2 hz
      refine ⟨?_, ?_, ?_, ?_⟩
      · first | rw [f1, if_neg this] | rw [f2]
      · first | rw [f1, if_neg this] | rw [f2]
      · rw [f3, updateParent_parent]; grind
      · rw [f5, updateParent_red, g5]
    · refine ReprC_update _ nx.2.2.2.2 hkn (ReprC_congr (h := h) ?_ g4 h1)
      intro z hz
      have : z ≠ x := by rintro rfl; exact nx.2.2.2.2 hz
      have : z ≠ y := by rintro rfl; exact ny.2.2.2 hz
      have : h.left y ≠ some z := fun e => (nb z (hbr z e)).2.2 hz
      refine ⟨?_, ?_, ?_, ?_⟩ <;> grind
  · rw [f3, if_neg (Ne.symm nx.1), g3, if_pos rfl]
  · rw [f5, hd]
  · rw [f1, if_pos rfl]
  · rw [f3, if_pos rfl]
  · rw [f5, hc]
  · have e : h'.left x = h.left x := by
      rw [f1, if_neg nx.1, updateParent_left _ _ _ _ _ px, g1]
    rw [e]
    refine Repr_congr (h := h) (fun z hz => ?_) ha
    have : z ≠ x := by rintro rfl; exact nx.2.1 hz
    have : z ≠ y := by rintro rfl; exact ny.1 hz
    have : h.left y ≠ some z := fun e => (nb z (hbr z e)).1 hz
    have hp' : p ≠ some z := fun e => (nk z (hpk z e)).1 hz
    have := updateParent_left h3 p x (some y) z hp'
    have := updateParent_right h3 p x (some y) z hp'
    refine ⟨?_, ?_, ?_, ?_⟩ <;> grind
  · have e : h'.right x = h.left y := by
      rw [f2, updateParent_right _ _ _ _ _ px, g2, if_pos rfl]
    rw [e]
    refine Repr_reparent (h := h) hbn (fun z hz hq => ?_) (fun z hz => ?_) hb
    · have : z ≠ x := by rintro rfl; exact nx.2.2.1 hz
      have : z ≠ y := by rintro rfl; exact ny.2.1 hz
      have hp' : p ≠ some z := fun e => (nb z hz).2.2 (hpk z e)
      have := updateParent_left h3 p x (some y) z hp'
      have := updateParent_right h3 p x (some y) z hp'
      refine ⟨?_, ?_, ?_, ?_⟩ <;> grind
    · have hz' := hbr z hz
      have : z ≠ x := by rintro rfl; exact nx.2.2.1 hz'
      have : z ≠ y := by rintro rfl; exact ny.2.1 hz'
      have hp' : p ≠ some z := fun e => (nb z hz').2.2 (hpk z e)
      have := updateParent_left h3 p x (some y) z hp'
      have := updateParent_right h3 p x (some y) z hp'
      refine ⟨?_, ?_, ?_, ?_⟩ <;> grind
  · have e : h'.right y = h.right y := by
      rw [f2, updateParent_right _ _ _ _ _ py, g2, if_neg (Ne.symm nx.1)]
    rw [e]
    refine Repr_congr (h := h) (fun z hz => ?_) he
    have : z ≠ x := by rintro rfl; exact nx.2.2.2.1 hz
    have : z ≠ y := by rintro rfl; exact ny.2.2.1 hz
    have : h.left y ≠ some z := fun e => (nb z (hbr z e)).2.1 hz
    have hp' : p ≠ some z := fun e => (nk z (hpk z e)).2 hz
    have := updateParent_left h3 p x (some y) z hp'
    have := updateParent_right h3 p x (some y) z hp'
    refine ⟨?_, ?_, ?_, ?_⟩ <;> grind
  · convert hnd using 1; simp [ids, T.toList]
  · refine ⟨fun z hz => ?_, f6, f7, f8⟩
    simp only [ids, T.toList, List.mem_append, List.mem_cons, not_or] at hz
    have : h.left y ≠ some z := fun e => by have := hbr z e; grind
    have hp' : p ≠ some z := fun e => by have := hpk z e; grind
    have := updateParent_left h3 p x (some y) z hp'
    have := updateParent_right h3 p x (some y) z hp'
    refine ⟨?_, ?_, ?_⟩ <;> grind

theorem rotateRight_spec {h : Heap} {x y : Nat} {p : Option Nat} (hxy : h.left x = some y)
    (hp : h.parent x = p) (n1 : x ≠ y) (n2 : h.right y ≠ some x) :
    ∃ h3 h', rotateRight h x = some h' ∧
      (∀ z, h3.right z = h.right z) ∧ (∀ z, h3.left z = if z = x then h.right y else h.left z) ∧
      (∀ z, h3.parent z = if z = y then p else if h.right y = some z then some x else h.parent z) ∧
      h3.root = h.root ∧ (∀ z, h3.red z = h.red z) ∧
      (∀ z, h'.right z = if z = y then some x else (updateParent h3 p x (some y)).right z) ∧
      (∀ z, h'.left z = (updateParent h3 p x (some y)).left z) ∧
      (∀ z, h'.parent z = if z = x then some y else h3.parent z) ∧
      h'.root = (updateParent h3 p x (some y)).root ∧ (∀ z, h'.red z = h.red z) ∧
      h'.key = h.key ∧ h'.dups = h.dups ∧ h'.head = h.head := by
  obtain ⟨h3, e3⟩ : ∃ h3, h3 = setParent (setParentOpt (setLeft h x (h.right y))
      ((setLeft h x (h.right y)).left x) x) y
      ((setParentOpt (setLeft h x (h.right y)) ((setLeft h x (h.right y)).left x) x).parent x) := ⟨_, rfl⟩
  have e0 : (setLeft h x (h.right y)).left x = h.right y := by simp [setLeft, upd]
  have hpx : h3.parent x = p := by
    rw [e3, e0]
    simp only [setParent, upd, if_neg n1, setParentOpt_parent, if_neg n2]
    simpa [setLeft] using hp
  have k1 : h3.key = h.key := by rw [e3]; simp [setParent, setParentOpt_key, setLeft]
  have k2 : h3.dups = h.dups := by rw [e3]; simp [setParent, setParentOpt_dups, setLeft]
  have k3 : h3.head = h.head := by rw [e3]; simp [setParent, setParentOpt_head, setLeft]
  have k4 : h3.red = h.red := by rw [e3]; simp [setParent, setParentOpt_red, setLeft]
  refine ⟨h3, setParent (setRight (updateParent h3 p x (some y)) y (some x)) x (some y), ?_, ?_, ?_, ?_,
    ?_, ?_, ?_, ?_, ?_, ?_, ?_, ?_, ?_, ?_⟩
  · simp only [rotateRight, hxy, ← e3, hpx]
  · intro z; rw [e3]; simp [setParent, setParentOpt_right, setLeft]
  · intro z; rw [e3]; simp [setParent, setParentOpt_left, setLeft, upd]
  · intro z; rw [e3, e0]
    simp only [setParent, upd, setParentOpt_parent, if_neg n2]
    simp [setLeft, hp]
  · rw [e3]; simp [setParent, setParentOpt_root, setLeft]
  · intro z; rw [k4]
  · intro z; simp [setParent, setRight, upd]
  · intro z; simp [setParent, setRight]
  · intro z; simp [setParent, setRight, upd, updateParent_parent]
  · simp [setParent, setRight]
  · intro z; simp [setParent, setRight, updateParent_red, k4]
  · simp [setParent, setRight, updateParent_key, k1]
  · simp [setParent, setRight, updateParent_dups, k2]
  · simp [setParent, setRight, updateParent_head, k3]

theorem rotateRight_rep {h k c a x d b y e} (hr : Rep h k (node c (node d e y b) x a)) :
    ∃ h', rotateRight h x = some h' ∧ Rep h' k (node d e y (node c b x a)) ∧
      Frame h h' (ids k (node c (node d e y b) x a)) := by
  obtain ⟨⟨q, p, h1, h2⟩, hn⟩ := hr
  simp only [Repr] at h2
  obtain ⟨rfl, hp, hc, ⟨hxy, hyp, hd, he, hb⟩, ha⟩ := h2
  have hnd := hn
  simp only [ids, T.toList, List.nodup_append, List.nodup_cons, List.mem_append,
    List.mem_cons] at hn
  have hpk := ReprC_parent h1
  have hbr := Repr_root hb
  have nx : x ≠ y ∧ x ∉ a.toList ∧ x ∉ b.toList ∧ x ∉ e.toList ∧ x ∉ lids k ++ rids k := by
    clear hpk hbr hnd; grind
  have ny : y ∉ a.toList ∧ y ∉ b.toList ∧ y ∉ e.toList ∧ y ∉ lids k ++ rids k := by
    clear hpk hbr hnd; grind
  have nb : ∀ z ∈ b.toList, z ∉ a.toList ∧ z ∉ e.toList ∧ z ∉ lids k ++ rids k := by
    clear hpk hbr hnd; grind
  have nk : ∀ z ∈ lids k ++ rids k, z ∉ a.toList ∧ z ∉ e.toList := by
    clear hpk hbr hnd; grind
  have hkn : (lids k ++ rids k).Nodup := by
    clear hpk hbr hnd; rw [List.nodup_append]; grind
  have hbn : b.toList.Nodup := by clear hpk hbr hnd; grind
  have n2 : h.right y ≠ some x := fun e => nx.2.2.1 (hbr x e)
  have px : p ≠ some x := fun e => nx.2.2.2.2 (hpk x e)
  have py : p ≠ some y := fun e => ny.2.2.2 (hpk y e)
  clear hn
  obtain ⟨h3, h', e, g1, g2, g3, g4, g5, f2, f1, f3, f4, f5, f6, f7, f8⟩ := rotateRight_spec hxy hp nx.1 n2
  refine ⟨h', e, ⟨⟨some y, p, ?_, rfl, ?_, ?_, ?_, ⟨?_, ?_, ?_, ?_, ?_⟩⟩, ?_⟩, ?_⟩
  · refine ReprC_congr (h := updateParent h3 p x (some y)) ?_ f4 ?_
    · intro z hz
      have : z ≠ x := by rintro rfl; exact nx.2.2.2.2 hz
      have : z ≠ y := by rintro rfl; exact ny.2.2.2 hz
      refine ⟨?_, ?_, ?_, ?_⟩
      · first | rw [f2, if_neg this] | rw [f1]
      · first | rw [f2, if_neg this] | rw [f1]
      · rw [f3, updateParent_parent]; grind
      · rw [f5, updateParent_red, g5]
    · refine ReprC_update _ nx.2.2.2.2 hkn (ReprC_congr (h := h) ?_ g4 h1)
      intro z hz
      have : z ≠ x := by rintro rfl; exact nx.2.2.2.2 hz
      have : z ≠ y := by rintro rfl; exact ny.2.2.2 hz
      have : h.right y ≠ some z := fun e => (nb z (hbr z e)).2.2 hz
      refine ⟨?_, ?_, ?_, ?_⟩ <;> grind
  · rw [f3, if_neg (Ne.symm nx.1), g3, if_pos rfl]
  · rw [f5, hd]
  · have e : h'.left y = h.left y := by
      rw [f1, updateParent_left _ _ _ _ _ py, g2, if_neg (Ne.symm nx.1)]
    rw [e]
    refine Repr_congr (h := h) (fun z hz => ?_) he
    have : z ≠ x := by rintro rfl; exact nx.2.2.2.1 hz
    have : z ≠ y := by rintro rfl; exact ny.2.2.1 hz
    have : h.right y ≠ some z := fun e => (nb z (hbr z e)).2.1 hz
    have hp' : p ≠ some z := fun e => (nk z (hpk z e)).2 hz
    have := updateParent_left h3 p x (some y) z hp'
    have := updateParent_right h3 p x (some y) z hp'
    refine ⟨?_, ?_, ?_, ?_⟩ <;> grind
  · rw [f2, if_pos rfl]
  · rw [f3, if_pos rfl]
  · rw [f5, hc]
  · have e : h'.left x = h.right y := by
      rw [f1, updateParent_left _ _ _ _ _ px, g2, if_pos rfl]
    rw [e]
    refine Repr_reparent (h := h) hbn (fun z hz hq => ?_) (fun z hz => ?_) hb
    · have : z ≠ x := by rintro rfl; exact nx.2.2.1 hz
      have : z ≠ y := by rintro rfl; exact ny.2.1 hz
      have hp' : p ≠ some z := fun e => (nb z hz).2.2 (hpk z e)
      have := updateParent_left h3 p x (some y) z hp'
      have := updateParent_right h3 p x (some y) z hp'
      refine ⟨?_, ?_, ?_, ?_⟩ <;> grind
    · have hz' := hbr z hz
      have : z ≠ x := by rintro rfl; exact nx.2.2.1 hz'
      have : z ≠ y := by rintro rfl; exact ny.2.1 hz'
      have hp' : p ≠ some z := fun e => (nb z hz').2.2 (hpk z e)
      have := updateParent_left h3 p x (some y) z hp'
      have := updateParent_right h3 p x (some y) z hp'
      refine ⟨?_, ?_, ?_, ?_⟩ <;> grind
  · have e : h'.right x = h.right x := by
      rw [f2, if_neg nx.1, updateParent_right _ _ _ _ _ px, g1]
    rw [e]
    refine Repr_congr (h := h) (fun z hz => ?_) ha
    have : z ≠ x := by rintro rfl; exact nx.2.1 hz
    have : z ≠ y := by rintro rfl; exact ny.1 hz
    have : h.right y ≠ some z := fun e => (nb z (hbr z e)).1 hz
    have hp' : p ≠ some z := fun e => (nk z (hpk z e)).1 hz
    have := updateParent_left h3 p x (some y) z hp'
    have := updateParent_right h3 p x (some y) z hp'
    refine ⟨?_, ?_, ?_, ?_⟩ <;> grind
  · convert hnd using 1; simp [ids, T.toList]
  · refine ⟨fun z hz => ?_, f6, f7, f8⟩
    simp only [ids, T.toList, List.mem_append, List.mem_cons, not_or] at hz
    have : h.right y ≠ some z := fun e => by have := hbr z e; grind
    have hp' : p ≠ some z := fun e => by have := hpk z e; grind
    have := updateParent_left h3 p x (some y) z hp'
    have := updateParent_right h3 p x (some y) z hp'
    refine ⟨?_, ?_, ?_⟩ <;> grind

end Verif.RbTree
