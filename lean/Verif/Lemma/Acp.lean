import Verif.Model.Acp
import Verif.Lemma.AlruPop
import Mathlib.Data.List.Perm.Subperm

/-! Lemmas about the buckets of the ACP cleaning policy. -/

namespace Verif.Acp

open Verif.Collision (upd upd_same upd_ne)

theorem updK_same {α : Type} (f : Key → α) (k : Key) (v : α) : updK f k v k = v := by
  unfold updK; rw [if_pos rfl]

theorem updK_ne {α : Type} {f : Key → α} {k j : Key} {v : α} (h : j ≠ k) : updK f k v j = f j := by
  unfold updK; rw [if_neg h]

/-- Lines of a chunk. -/
def perChunk (ls : Nat) : Nat := chunkSize / ls

theorem validLs_cases {ls : Nat} (h : ValidLs ls) :
    ls = 4096 ∨ ls = 8192 ∨ ls = 16384 ∨ ls = 32768 ∨ ls = 65536 := by
  unfold ValidLs at h; simpa using h

theorem thr_eq {ls : Nat} (h : ValidLs ls) {i : Nat} (hi : i ≤ 10) :
    threshold ls i = i * (perChunk ls / 10) := by
  unfold threshold defaults perChunk chunkSize
  have hc : i = 0 ∨ i = 1 ∨ i = 2 ∨ i = 3 ∨ i = 4 ∨ i = 5 ∨ i = 6 ∨ i = 7 ∨ i = 8 ∨ i = 9 ∨ i = 10 := by
    omega
  rcases validLs_cases h with rfl | rfl | rfl | rfl | rfl <;>
    rcases hc with rfl | rfl | rfl | rfl | rfl | rfl | rfl | rfl | rfl | rfl | rfl <;> rfl

theorem perChunk_facts {ls : Nat} (h : ValidLs ls) :
    perChunk ls * ls = chunkSize ∧ perChunk ls = 10 * (perChunk ls / 10) ∧
      2 ≤ perChunk ls / 10 ∧ perChunk ls < 2 ^ 16 ∧ 0 < ls := by
  rcases validLs_cases h with rfl | rfl | rfl | rfl | rfl <;> decide

theorem chunkId_eq {ls : Nat} (h : ValidLs ls) (cl : Nat) : chunkId ls cl = cl / perChunk ls := by
  have := perChunk_facts h
  unfold chunkId
  rw [← this.1]
  exact Nat.mul_div_mul_right _ _ this.2.2.2.2

/-- The bucket fits the number of dirty lines, in terms of the unit of the thresholds. -/
def Exact (u b num : Nat) : Prop := b ≤ 10 ∧ num ≤ b * u ∧ (b = 0 ∨ (b - 1) * u < num)

/-- The bucket after the buckets were filled. -/
def Low (u b num : Nat) : Prop := b ≤ 10 ∧ b * u ≤ num ∧ (b < 10 → num < (b + 1) * u)

/-- The lists are in order. -/
structure Wf (a : Ctx) : Prop where
  mem : ∀ b k, k ∈ a.list b ↔ (∃ m, a.tab k.1 = some m ∧ k.2 < m) ∧ (a.chunk k).bucket = b
  nodup : ∀ b, (a.list b).Nodup

theorem moveTail_mem {list : Nat → List Key} {k : Key} {b : Nat} (hn : ∀ b, (list b).Nodup)
    (b' : Nat) (j : Key) :
    j ∈ moveTail list k b b' ↔ (j = k ∧ b' = b) ∨ (j ≠ k ∧ j ∈ list b') := by
  unfold moveTail unlink
  by_cases hb : b' = b
  · subst hb
    rw [upd_same, List.mem_append, List.mem_singleton, (hn b').mem_erase_iff]
    grind
  · rw [upd_ne hb, (hn b').mem_erase_iff]
    grind

theorem moveHead_mem {list : Nat → List Key} {k : Key} {b : Nat} (hn : ∀ b, (list b).Nodup)
    (b' : Nat) (j : Key) :
    j ∈ moveHead list k b b' ↔ (j = k ∧ b' = b) ∨ (j ≠ k ∧ j ∈ list b') := by
  unfold moveHead unlink
  by_cases hb : b' = b
  · subst hb
    rw [upd_same, List.mem_cons, (hn b').mem_erase_iff]
    grind
  · rw [upd_ne hb, (hn b').mem_erase_iff]
    grind

theorem moveTail_nodup {list : Nat → List Key} {k : Key} {b : Nat} (hn : ∀ b, (list b).Nodup)
    (b' : Nat) : (moveTail list k b b').Nodup := by
  unfold moveTail unlink
  by_cases hb : b' = b
  · subst hb
    rw [upd_same, List.nodup_append]
    refine ⟨(hn b').erase _, by simp, ?_⟩
    intro x hx y hy
    rw [(hn b').mem_erase_iff] at hx
    simp at hy; rw [hy]; exact hx.1
  · rw [upd_ne hb]; exact (hn b').erase _

theorem moveHead_nodup {list : Nat → List Key} {k : Key} {b : Nat} (hn : ∀ b, (list b).Nodup)
    (b' : Nat) : (moveHead list k b b').Nodup := by
  unfold moveHead unlink
  by_cases hb : b' = b
  · subst hb
    rw [upd_same, List.nodup_cons]
    refine ⟨?_, (hn b').erase _⟩
    rw [(hn b').mem_erase_iff]
    simp
  · rw [upd_ne hb]; exact (hn b').erase _

/-- Moving a chunk and recording its bucket keeps the lists in order. -/
theorem move_wf {a : Ctx} (w : Wf a) {k : Key} {m : Nat} (ht : a.tab k.1 = some m) (hk : k.2 < m)
    {list : Nat → List Key} {c : Chunk}
    (hl : ∀ b' j, j ∈ list b' ↔ (j = k ∧ b' = c.bucket) ∨ (j ≠ k ∧ j ∈ a.list b'))
    (hn : ∀ b, (list b).Nodup) (f : Nat → Bool) :
    Wf { a with chunk := updK a.chunk k c, list := list, flag := f } := by
  refine ⟨fun b j => ?_, hn⟩
  show j ∈ list b ↔ (∃ m, a.tab j.1 = some m ∧ j.2 < m) ∧ (updK a.chunk k c j).bucket = b
  rw [hl]
  by_cases e : j = k
  · subst e
    rw [updK_same]
    constructor
    · rintro (⟨_, h⟩ | ⟨h, _⟩)
      · exact ⟨⟨m, ht, hk⟩, h.symm⟩
      · exact absurd rfl h
    · rintro ⟨_, h⟩; exact Or.inl ⟨rfl, h.symm⟩
  · rw [updK_ne e]
    have := w.mem b j
    grind

/-- Changing the number of dirty lines of a chunk keeps the lists in order. -/
theorem num_wf {a : Ctx} (w : Wf a) (k : Key) (num : Nat) (f : Nat → Bool) :
    Wf { a with flag := f, chunk := updK a.chunk k { a.chunk k with num := num } } := by
  refine ⟨fun b j => ?_, w.nodup⟩
  show j ∈ a.list b ↔ (∃ m, a.tab j.1 = some m ∧ j.2 < m) ∧
    (updK a.chunk k { a.chunk k with num := num } j).bucket = b
  rw [w.mem]
  by_cases e : j = k
  · subst e; rw [updK_same]
  · rw [updK_ne e]

theorem le10 {b : Nat} (h : b ≤ 10) : b = 0 ∨ b = 1 ∨ b = 2 ∨ b = 3 ∨ b = 4 ∨ b = 5 ∨ b = 6 ∨
    b = 7 ∨ b = 8 ∨ b = 9 ∨ b = 10 := by omega

theorem near_up {u b num num0 : Nat} (hu : 2 ≤ u) (hb : Exact u b num0 ∨ Low u b num0)
    (h1 : num ≤ num0 + 1) (hL : num ≤ 10 * u) (c : num > b * u) : b < 10 ∧ Exact u (b + 1) num := by
  unfold Exact Low at *
  have h10 : b ≤ 10 := by rcases hb with h | h <;> exact h.1
  rcases le10 h10 with rfl | rfl | rfl | rfl | rfl | rfl | rfl | rfl | rfl | rfl | rfl <;> omega

theorem near_down {u b num num0 : Nat} (hu : 2 ≤ u) (hb : Exact u b num0 ∨ Low u b num0)
    (h2 : num0 ≤ num + 1) (c : b ≠ 0 ∧ num ≤ (b - 1) * u) : Exact u (b - 1) num := by
  unfold Exact Low at *
  have h10 : b ≤ 10 := by rcases hb with h | h <;> exact h.1
  rcases le10 h10 with rfl | rfl | rfl | rfl | rfl | rfl | rfl | rfl | rfl | rfl | rfl <;> omega

theorem near_stay {u b num num0 : Nat} (hb : Exact u b num0 ∨ Low u b num0) (c1 : ¬ num > b * u)
    (c2 : ¬ (b ≠ 0 ∧ num ≤ (b - 1) * u)) : Exact u b num := by
  unfold Exact Low at *
  have h10 : b ≤ 10 := by rcases hb with h | h <;> exact h.1
  refine ⟨h10, by omega, ?_⟩
  by_cases h : b = 0
  · exact Or.inl h
  · right
    by_contra hc
    exact c2 ⟨h, by omega⟩

/-- `_acp_update_bucket` after a change of the number of dirty lines by at most one. -/
theorem updateBucket_spec {a : Ctx} (hv : ValidLs a.ls) (w : Wf a) {k : Key} {m : Nat}
    (ht : a.tab k.1 = some m) (hk : k.2 < m) {num0 : Nat}
    (hb : Exact (perChunk a.ls / 10) (a.chunk k).bucket num0 ∨
      Low (perChunk a.ls / 10) (a.chunk k).bucket num0)
    (h1 : (a.chunk k).num ≤ num0 + 1) (h2 : num0 ≤ (a.chunk k).num + 1)
    (hL : (a.chunk k).num ≤ perChunk a.ls) (hL0 : num0 ≤ perChunk a.ls) :
    ∃ a', updateBucket a k = some a' ∧ a'.ls = a.ls ∧ a'.tab = a.tab ∧ a'.total = a.total ∧
      a'.flag = a.flag ∧ Wf a' ∧ (∀ j, j ≠ k → a'.chunk j = a.chunk j) ∧
      (a'.chunk k).num = (a.chunk k).num ∧ (a'.chunk k).ts = (a.chunk k).ts ∧
      Exact (perChunk a.ls / 10) (a'.chunk k).bucket (a.chunk k).num := by
  have hp := perChunk_facts hv
  have hb10 : (a.chunk k).bucket ≤ 10 := by rcases hb with h | h <;> exact h.1
  have ht0 := thr_eq hv hb10
  have ht1 := thr_eq hv (i := (a.chunk k).bucket - 1) (by omega)
  unfold updateBucket
  simp only [ht0, ht1]
  by_cases c1 : (a.chunk k).num > (a.chunk k).bucket * (perChunk a.ls / 10)
  · obtain ⟨h9, hE⟩ := near_up hp.2.2.1 hb h1 (by omega) c1
    rw [if_pos c1, if_neg (by unfold maxBuckets; omega)]
    refine ⟨_, rfl, rfl, rfl, rfl, rfl,
      move_wf w ht hk (moveTail_mem w.nodup) (moveTail_nodup w.nodup) _,
      fun j hj => updK_ne hj, ?_, ?_, ?_⟩
    · simp only [updK_same]
    · simp only [updK_same]
    · simp only [updK_same]; exact hE
  · rw [if_neg c1]
    by_cases c2 : (a.chunk k).bucket ≠ 0 ∧
        (a.chunk k).num ≤ ((a.chunk k).bucket - 1) * (perChunk a.ls / 10)
    · rw [if_pos c2]
      refine ⟨_, rfl, rfl, rfl, rfl, rfl,
        move_wf w ht hk (moveHead_mem w.nodup) (moveHead_nodup w.nodup) _,
        fun j hj => updK_ne hj, ?_, ?_, ?_⟩
      · simp only [updK_same]
      · simp only [updK_same]
      · simp only [updK_same]; exact near_down hp.2.2.1 hb h2 c2
    · rw [if_neg c2]
      exact ⟨_, rfl, rfl, rfl, rfl, rfl, w, fun j _ => rfl, rfl, rfl, near_stay hb c1 c2⟩

/-! ## Counting -/

/-- The lines of chunk `k` that are flagged. -/
def flagged (ls : Nat) (l : Lines) (flag : Nat → Bool) (k : Key) : Nat :=
  (List.range l.n).countP fun c => flag c && (chunkOf ls l c == some k)

theorem countP_range_succ {f f' : Nat → Bool} {c : Nat} (hne : ∀ d, d ≠ c → f' d = f d)
    (h0 : f c = false) (h1 : f' c = true) : ∀ {n : Nat}, c < n →
      (List.range n).countP f' = (List.range n).countP f + 1
  | 0, h => by omega
  | n + 1, h => by
    rw [List.range_succ, List.countP_append, List.countP_append]
    by_cases e : c = n
    · subst e
      have : (List.range c).countP f' = (List.range c).countP f :=
        List.countP_congr fun d hd => by rw [hne d (by have := List.mem_range.1 hd; omega)]
      rw [this]; simp [h0, h1]
    · rw [countP_range_succ hne h0 h1 (n := n) (by omega)]
      simp only [List.countP_singleton, hne n (Ne.symm e)]
      omega

theorem countP_range_congr {f f' : Nat → Bool} {n : Nat} (h : ∀ d, d < n → f' d = f d) :
    (List.range n).countP f' = (List.range n).countP f :=
  List.countP_congr fun d hd => by rw [h d (List.mem_range.1 hd)]

/-- A chunk holds no more lines than fit in it. -/
theorem flagged_le {ls : Nat} (hv : ValidLs ls) {l : Lines}
    (inj : ∀ c d x, l.at_ c = some x → l.at_ d = some x → c = d) (flag : Nat → Bool) (k : Key) :
    flagged ls l flag k ≤ perChunk ls := by
  unfold flagged
  rw [List.countP_eq_length_filter]
  have hp := perChunk_facts hv
  have hpos : 0 < perChunk ls := by omega
  have hmem : ∀ c ∈ (List.range l.n).filter fun c => flag c && (chunkOf ls l c == some k),
      ∃ cl, l.at_ c = some (k.1, cl) ∧ cl / perChunk ls = k.2 := by
    intro c hc
    rw [List.mem_filter] at hc
    have h := hc.2
    simp only [Bool.and_eq_true, beq_iff_eq] at h
    have h := h.2
    unfold chunkOf at h
    cases ha : l.at_ c with
    | none => rw [ha] at h; simp at h
    | some x =>
      rw [ha] at h
      obtain ⟨core, cl⟩ := x
      simp only [Option.map_some, Option.some.injEq] at h
      rw [← h]
      exact ⟨cl, rfl, (chunkId_eq hv cl).symm⟩
  generalize hX : ((List.range l.n).filter fun c => flag c && (chunkOf ls l c == some k)) = X at *
  have hXn : X.Nodup := by rw [← hX]; exact List.nodup_range.filter _
  have hnd : (X.map fun c => ((l.at_ c).getD (0, 0)).2).Nodup := by
    refine List.Nodup.map_on ?_ hXn
    intro c hc d hd e
    obtain ⟨x, hx, _⟩ := hmem c hc
    obtain ⟨y, hy, _⟩ := hmem d hd
    rw [hx, hy] at e
    simp only [Option.getD_some] at e
    rw [e] at hx
    exact inj c d _ hx hy
  have hsub : (X.map fun c => ((l.at_ c).getD (0, 0)).2) ⊆
      List.range' (k.2 * perChunk ls) (perChunk ls) := by
    intro y hy
    obtain ⟨c, hc, rfl⟩ := List.mem_map.1 hy
    obtain ⟨x, hx, hd⟩ := hmem c hc
    rw [hx]
    simp only [Option.getD_some]
    rw [List.mem_range'_1, ← hd]
    have := Nat.div_add_mod x (perChunk ls)
    have := Nat.mod_lt x hpos
    rw [Nat.mul_comm (x / perChunk ls)]
    omega
  have := (hnd.subperm hsub).length_le
  simpa using this

/-- A line gets its flag. -/
theorem flagged_set {ls : Nat} {l : Lines} {flag : Nat → Bool} {k : Key} {c : Nat} (hc : c < l.n)
    (hk : chunkOf ls l c = some k) (h0 : flag c = false) :
    flagged ls l (upd flag c true) k = flagged ls l flag k + 1 := by
  unfold flagged
  refine countP_range_succ (fun d hd => ?_) ?_ ?_ hc
  · rw [upd_ne hd]
  · rw [h0]; rfl
  · rw [upd_same, hk]; simp

/-- A line loses its flag. -/
theorem flagged_clear {ls : Nat} {l : Lines} {flag : Nat → Bool} {k : Key} {c : Nat} (hc : c < l.n)
    (hk : chunkOf ls l c = some k) (h0 : flag c = true) :
    flagged ls l (upd flag c false) k + 1 = flagged ls l flag k := by
  unfold flagged
  refine (countP_range_succ (fun d hd => ?_) ?_ ?_ hc).symm
  · rw [upd_ne hd]
  · rw [upd_same]; rfl
  · rw [h0, hk]; simp

/-- The flag of a line of another chunk. -/
theorem flagged_other {ls : Nat} {l : Lines} {flag : Nat → Bool} {k : Key} {c : Nat} (v : Bool)
    (hk : chunkOf ls l c ≠ some k) : flagged ls l (upd flag c v) k = flagged ls l flag k := by
  unfold flagged
  refine countP_range_congr fun d _ => ?_
  by_cases e : d = c
  · subst e
    rw [show (chunkOf ls l d == some k) = false by simpa using hk]; simp
  · rw [upd_ne e]

end Verif.Acp
