import Verif.Model.CoreId
import Verif.Lemma.Common

/-!
C39. Core id allocation: a new core gets a free id, 0 only if no other is free, and there is an
error only if all ids are taken.
-/

namespace Verif.CoreId

/-! ### Spec -/

/-- Id `id` is taken (`env_bit_test`). -/
def Used (bitmap : Nat → Nat) (id : Nat) : Prop := (bitmap (id / 64)).testBit (id % 64) = true

/-- The words of the bitmap are 64 bits wide. -/
def Words (bitmap : Nat → Nat) : Prop := ∀ i, bitmap i < 2 ^ 64

theorem ffz_spec : ∀ n w, ffz n w ≤ n ∧ (∀ j, j < ffz n w → w.testBit j = true) ∧
    (ffz n w < n → w.testBit (ffz n w) = false)
  | 0, w => ⟨Nat.le_refl _, fun j h => absurd h (Nat.not_lt_zero _), fun h => absurd h (Nat.lt_irrefl _)⟩
  | n + 1, w => by
    unfold ffz
    by_cases h : w % 2 = 1
    · rw [if_pos h]
      obtain ⟨h1, h2, h3⟩ := ffz_spec n (w / 2)
      refine ⟨by omega, ?_, ?_⟩
      · intro j hj
        cases j with
        | zero => rw [Nat.testBit_zero, h]; rfl
        | succ j => rw [Nat.testBit_succ]; exact h2 j (by omega)
      · intro hlt
        rw [Nat.testBit_succ]; exact h3 (by omega)
    · rw [if_neg h]
      refine ⟨by omega, fun j hj => absurd hj (Nat.not_lt_zero _), fun _ => ?_⟩
      rw [Nat.testBit_zero]; simpa using h

theorem full_word {w : Nat} (h : ∀ j, j < 64 → w.testBit j = true) (hw : w < 2 ^ 64) :
    w = 2 ^ 64 - 1 := by
  apply Nat.eq_of_testBit_eq
  intro j
  rw [Nat.testBit_two_pow_sub_one]
  by_cases hj : j < 64
  · rw [h j hj]; simp [hj]
  · have : w < 2 ^ j := Nat.lt_of_lt_of_le hw (Nat.pow_le_pow_right (by omega) (by omega))
    rw [Nat.testBit_lt_two_pow this]; simp [hj]

theorem masked_lt {b : Nat → Nat} (hb : Words b) (i : Nat) : masked b i < 2 ^ 64 := by
  unfold masked
  apply Nat.or_lt_two_pow (hb i)
  split <;> decide

theorem masked_bit (b : Nat → Nat) {i j : Nat} (hj : j < 64) :
    (masked b i).testBit j = true ↔ Used b (i * 64 + j) ∨ i * 64 + j = 0 := by
  have h1 : (i * 64 + j) / 64 = i := by omega
  have h2 : (i * 64 + j) % 64 = j := by omega
  unfold masked Used
  rw [h1, h2, Nat.testBit_or, Bool.or_eq_true]
  constructor
  · rintro (h | h)
    · exact Or.inl h
    · right
      split at h
      · rename_i h0
        cases j with
        | zero => omega
        | succ j =>
          rw [Nat.testBit_succ] at h
          simp at h
      · simp at h
  · rintro (h | h)
    · exact Or.inl h
    · right
      obtain ⟨rfl, rfl⟩ : i = 0 ∧ j = 0 := by omega
      rfl

/-- The scan gives the least free nonzero id, or the limit. -/
theorem scan_spec {max : Nat} {b : Nat → Nat} (hb : Words b) : ∀ n i, max < (n + i) * 64 →
    (∀ id, id < i * 64 → id < max → Used b id ∨ id = 0) →
    scan max b n i ≤ max ∧
    (∀ id, id < scan max b n i → Used b id ∨ id = 0) ∧
    (scan max b n i < max → ¬ Used b (scan max b n i) ∧ scan max b n i ≠ 0)
  | 0, i, hn, h => by
    refine ⟨Nat.le_refl _, fun id hid => h id ?_ hid, fun hlt => absurd hlt (Nat.lt_irrefl _)⟩
    show id < i * 64
    have : id < max := hid
    omega
  | n + 1, i, hn, h => by
    unfold scan
    by_cases him : i * 64 < max
    · rw [if_pos him]
      obtain ⟨f1, f2, f3⟩ := ffz_spec 64 (masked b i)
      by_cases hz : 2 ^ 64 - 1 - masked b i ≠ 0
      · rw [if_pos hz]
        have hlt : ffz 64 (masked b i) < 64 := by
          rcases Nat.lt_or_ge (ffz 64 (masked b i)) 64 with h' | h'
          · exact h'
          · exfalso
            apply hz
            rw [full_word (fun j hj => f2 j (by omega)) (masked_lt hb i)]
        refine ⟨Nat.min_le_left _ _, ?_, ?_⟩
        · intro id hid
          by_cases hi : id < i * 64
          · exact h id hi (by omega)
          · have := (masked_bit b (i := i) (j := id - i * 64) (by omega)).1 (f2 _ (by omega))
            rwa [show i * 64 + (id - i * 64) = id from by omega] at this
        · intro hlt2
          have he : min max (i * 64 + ffz 64 (masked b i)) = i * 64 + ffz 64 (masked b i) := by omega
          rw [he]
          have hf := f3 hlt
          have hne : ¬ (Used b (i * 64 + ffz 64 (masked b i)) ∨
              i * 64 + ffz 64 (masked b i) = 0) := by
            intro hh
            have := (masked_bit b hlt).2 hh
            rw [hf] at this
            cases this
          exact ⟨fun h => hne (Or.inl h), fun h => hne (Or.inr h)⟩
      · rw [if_neg hz]
        apply scan_spec hb n (i + 1) (by omega)
        intro id hid hm
        by_cases hi : id < i * 64
        · exact h id hi hm
        · have hw : masked b i = 2 ^ 64 - 1 := by
            have := masked_lt hb i
            omega
          have := (masked_bit b (i := i) (j := id - i * 64) (by omega)).1 (by
            rw [hw, Nat.testBit_two_pow_sub_one]; simp; omega)
          rwa [show i * 64 + (id - i * 64) = id from by omega] at this
    · rw [if_neg him]
      exact ⟨Nat.le_refl _, fun id hid => h id (by omega) hid, fun hlt => absurd hlt (Nat.lt_irrefl _)⟩

/-- Least nonzero free id, 0 if there is none but 0 is free, error if all ids are taken. For any
limit, not only multiples of the word size. -/
theorem newId_exact (max : Nat) (b : Nat → Nat) (hb : Words b) (hm : 0 < max) :
    match newId max b with
    | none => ∀ id, id < max → Used b id
    | some id => id < max ∧ ¬ Used b id ∧
        (∀ id', 0 < id' → id' < max → ¬ Used b id' → 0 < id ∧ id ≤ id') := by
  obtain ⟨h1, h2, h3⟩ := scan_spec (max := max) hb (max + 1) 0 (by omega) (fun id hid => absurd hid (by omega))
  have h0 : Used b 0 ↔ ¬ (b 0 % 2 = 0) := by
    unfold Used
    rw [show 0 / 64 = 0 from rfl, show 0 % 64 = 0 from rfl, Nat.testBit_zero, decide_eq_true_eq]
    omega
  unfold newId
  dsimp only
  unfold findFree
  dsimp only
  generalize scan max b (max + 1) 0 = r at *
  by_cases hc : r = max ∧ b 0 % 2 = 0
  · rw [if_pos hc, if_neg (by omega)]
    dsimp only
    refine ⟨hm, fun h => h0.1 h hc.2, ?_⟩
    intro id' hp hlt hu
    exfalso
    rcases h2 id' (by omega) with h | h
    · exact hu h
    · omega
  · rw [if_neg hc]
    by_cases hr : max ≤ r
    · rw [if_pos hr]
      dsimp only
      intro id hid
      rcases h2 id (by omega) with h | h
      · exact h
      · subst h
        exact h0.2 (fun hz => hc ⟨by omega, hz⟩)
    · rw [if_neg hr]
      dsimp only
      obtain ⟨k1, k2⟩ := h3 (by omega)
      refine ⟨by omega, k1, ?_⟩
      intro id' hp hlt hu
      refine ⟨by omega, ?_⟩
      rcases Nat.lt_or_ge id' r with h | h
      · rcases h2 id' h with h' | h'
        · exact absurd h' hu
        · omega
      · exact h

example : newId 4096 (fun i => if i = 0 then 0b110 else 0) = some 3 := by decide +kernel
/-- All ids but 0 taken, limit 70. -/
example : newId 70 (fun i => if i = 0 then 2 ^ 64 - 2 else 0b111111) = some 0 ∧
    newId 70 (fun i => if i = 0 then 2 ^ 64 - 1 else 0b111111) = none := by decide +kernel

theorem used_setBit (b : Nat → Nat) (id x : Nat) :
    Used (setBit b id) x ↔ Used b x ∨ x = id := by
  unfold Used setBit
  by_cases h : x / 64 = id / 64
  · rw [if_pos h, Nat.testBit_or, Bool.or_eq_true, Nat.testBit_two_pow]
    constructor
    · rintro (h' | h')
      · exact Or.inl h'
      · right; rw [decide_eq_true_eq] at h'; omega
    · rintro (h' | rfl)
      · exact Or.inl h'
      · right; exact decide_eq_true rfl
  · rw [if_neg h]
    constructor
    · exact Or.inl
    · rintro (h' | rfl)
      · exact h'
      · exact absurd rfl h

theorem used_clearBit (b : Nat → Nat) (id x : Nat) :
    Used (clearBit b id) x ↔ Used b x ∧ x ≠ id := by
  unfold Used clearBit
  by_cases h : x / 64 = id / 64
  · rw [if_pos h, Nat.testBit_and, Bool.and_eq_true, ← Nat.sub_add_eq,
      Nat.add_comm 1, Nat.testBit_two_pow_sub_succ (Nat.pow_lt_pow_right (by omega) (by omega)),
      Nat.testBit_two_pow]
    have hm : x % 64 < 64 := Nat.mod_lt _ (by omega)
    constructor
    · rintro ⟨h1, h2⟩
      refine ⟨h1, ?_⟩
      rintro rfl
      simp at h2
    · rintro ⟨h1, h2⟩
      refine ⟨h1, ?_⟩
      have : id % 64 ≠ x % 64 := by omega
      simp [hm, this]
  · rw [if_neg h]
    constructor
    · intro h'; exact ⟨h', fun e => h (by rw [e])⟩
    · exact fun h' => h'.1

/-- Adding and removing cores; the state is the bitmap and the ids of the cores in the order added. -/
inductive Step (max : Nat) : (Nat → Nat) × List Nat → (Nat → Nat) × List Nat → Prop
  | add (b : Nat → Nat) (l : List Nat) (id : Nat) : newId max b = some id →
      Step max (b, l) (setBit b id, id :: l)
  | remove (b : Nat → Nat) (l : List Nat) (id : Nat) : id ∈ l →
      Step max (b, l) (clearBit b id, l.erase id)

theorem words_setBit {b : Nat → Nat} (hb : Words b) (id : Nat) : Words (setBit b id) := by
  intro i
  unfold setBit
  split
  · exact Nat.or_lt_two_pow (hb i) (Nat.pow_lt_pow_right (by omega) (by omega))
  · exact hb i

theorem words_clearBit {b : Nat → Nat} (hb : Words b) (id : Nat) : Words (clearBit b id) := by
  intro i
  unfold clearBit
  split
  · exact Nat.lt_of_le_of_lt Nat.and_le_left (hb i)
  · exact hb i

/-- However cores are added and removed, ids stay pairwise distinct and below the limit, and the
bitmap says exactly which are taken. -/
theorem ids_distinct (max : Nat) (hm : 0 < max) (b : Nat → Nat) (l : List Nat)
    (h : Reach (fun s => s = ((fun _ => 0), [])) (Step max) (b, l)) :
    l.Nodup ∧ (∀ id ∈ l, id < max) ∧ ∀ id, Used b id ↔ id ∈ l := by
  have := Reach.inv (P := fun s : (Nat → Nat) × List Nat => Words s.1 ∧ s.2.Nodup ∧
      (∀ id ∈ s.2, id < max) ∧ ∀ id, Used s.1 id ↔ id ∈ s.2) ?_ ?_ (b, l) h
  · exact this.2
  · rintro s rfl
    refine ⟨fun _ => (by decide : (0 : Nat) < 2 ^ 64), List.nodup_nil, fun _ h => absurd h (by simp), ?_⟩
    intro id
    unfold Used
    simp
  · rintro s t ⟨hw, hn, hlt, hu⟩ hs
    cases hs with
    | add b l id hid =>
      have hx := newId_exact max b hw hm
      rw [hid] at hx
      dsimp only at hx hw hn hlt hu ⊢
      refine ⟨words_setBit hw id, List.nodup_cons.2 ⟨fun hmem => hx.2.1 ((hu id).2 hmem), hn⟩, ?_, ?_⟩
      · intro x hxm
        rw [List.mem_cons] at hxm
        rcases hxm with rfl | hxm
        · exact hx.1
        · exact hlt x hxm
      · intro x
        rw [used_setBit, hu x, List.mem_cons]
        exact Or.comm
    | remove b l id hid =>
      dsimp only at hw hn hlt hu ⊢
      refine ⟨words_clearBit hw id, hn.erase id, ?_, ?_⟩
      · intro x hxm
        exact hlt x (List.mem_of_mem_erase hxm)
      · intro x
        rw [used_clearBit b, hu x, hn.mem_erase_iff]
        exact And.comm

/-- Two cores added and the first removed. -/
example : Reach (fun s => s = ((fun _ => 0), [])) (Step 8)
    (clearBit (setBit (setBit (fun _ => 0) 1) 2) 1, [2]) :=
  .step (.step (.step (.init rfl) (.add _ _ 1 (by decide +kernel))) (.add _ _ 2 (by decide +kernel)))
    (.remove _ _ 1 (by decide))

end Verif.CoreId
