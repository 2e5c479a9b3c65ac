import Verif.Model.Layout

/-! Property C17: the layout of the cache device. -/

namespace Verif.Layout

/-! ### Specification -/

/-- Supported line sizes. -/
def LineSize (L : Nat) : Prop := L = 4096 ∨ L = 8192 ∨ L = 16384 ∨ L = 32768 ∨ L = 65536

/-- The half-open intervals `[a, a + n)` and `[b, b + m)` have no common element. -/
def Apart (a n b m : Nat) : Prop := ∀ x, ¬ ((a ≤ x ∧ x < a + n) ∧ (b ≤ x ∧ x < b + m))

/-! ### The search in terms of a function -/

/-- Properties of the number of lines left by the metadata of `n` lines. -/
structure Good (f : Nat → Nat) (D M : Nat) : Prop where
  anti : ∀ m n, 1 ≤ m → m ≤ n → n ≤ M → f n ≤ f m
  lip : ∀ m n, 1 ≤ m → m ≤ n → n ≤ M → f m ≤ f n + (n - m) / 16 + 200
  pos : ∀ n, 1 ≤ n → n ≤ M → 1 ≤ f n
  le : ∀ n, 1 ≤ n → n ≤ M → f n ≤ M ∧ f n ≤ D

/-- The loop computes with `f` on `[1, M]`. -/
def Follows (c : Conf) (f : Nat → Nat) (M : Nat) : Prop :=
  M < 2 ^ 32 ∧ ∀ n : Nat, 1 ≤ n → n ≤ M → c.diff n = (f n : Int) - n

theorem loop_unfold (c : Conf) {f : Nat → Nat} {M : Nat} (hf : Follows c f M) (fuel i n : Nat)
    (diff lowest : Int) (hi : i < 1000) (h1 : 1 ≤ n) (hM : n ≤ M) :
    c.loop (fuel + 1) i n diff lowest =
      if 0 < (f n : Int) - n ∧ (f n : Int) - n = lowest then c.leave n
      else if (f n : Int) - n = 0 then c.leave n
      else c.loop fuel (i + 1) (f n : Nat) ((f n : Int) - n)
        (if 0 < (f n : Int) - n ∧ (f n : Int) - n < lowest then (f n : Int) - n else lowest) := by
  have h0 : ¬ ((n : Int) % 2 ^ 32 = 0) := by
    have := hf.1
    omega
  rw [Conf.loop, if_neg h0, if_neg (by omega), if_neg (by omega), hf.2 n h1 hM]
  simp only
  have : (n : Int) + ((f n : Int) - n) = (f n : Nat) := by omega
  rw [this]

/-- From a state below its successor, the loop leaves with a number of lines that fits. -/
theorem loop_low (c : Conf) {f : Nat → Nat} {D M : Nat} (hf : Follows c f M) (hg : Good f D M) :
    ∀ e k fuel i n : Nat, ∀ diff lowest : Int, 1 ≤ n → n ≤ M → f n = n + e → n ≤ f (f n) →
      (e : Int) < lowest → e ≤ 16 ^ k + 256 → i + 2 * k + 2 * min e 257 + 2 ≤ 999 →
      2 * k + 2 * min e 257 + 2 ≤ fuel →
      ∃ m, 1 ≤ m ∧ m ≤ M ∧ m ≤ f m ∧ c.loop fuel i n diff lowest = c.leave m := by
  intro e
  induction e using Nat.strongRecOn with
  | ind e ih =>
    intro k fuel i n diff lowest h1 hM he hff hlow hk hi hfu
    obtain ⟨fuel, rfl⟩ : ∃ g, fuel = g + 1 := ⟨fuel - 1, by omega⟩
    rw [loop_unfold c hf fuel i n diff lowest (by omega) h1 hM]
    have hd : (f n : Int) - n = e := by omega
    rw [hd]
    rw [if_neg (by omega)]
    by_cases e0 : e = 0
    · subst e0
      rw [if_pos (by simp)]
      exact ⟨n, h1, hM, by omega, rfl⟩
    rw [if_neg (by omega), if_pos (by omega)]
    -- at the high end
    have hle := hg.le n h1 hM
    have hh1 : 1 ≤ f n := hg.pos n h1 hM
    have hanti := hg.anti n (f n) h1 (by omega) hle.1
    obtain ⟨fuel, rfl⟩ : ∃ g, fuel = g + 1 := ⟨fuel - 1, by omega⟩
    rw [loop_unfold c hf fuel (i + 1) (f n) _ _ (by omega) hh1 hle.1]
    rw [if_neg (by omega)]
    by_cases e1 : (f (f n) : Int) - (f n : Nat) = 0
    · rw [if_pos e1]
      exact ⟨f n, hh1, hle.1, by omega, rfl⟩
    rw [if_neg e1, if_neg (by omega)]
    -- at the low end again
    have h21 : 1 ≤ f (f n) := hg.pos _ hh1 hle.1
    have h2M := (hg.le _ hh1 hle.1).1
    have a1 := hg.anti (f (f n)) (f n) h21 hanti hle.1
    have a2 := hg.anti n (f (f n)) h1 hff h2M
    have a3 := hg.lip (f (f n)) (f n) h21 hanti hle.1
    obtain ⟨e2, he2⟩ : ∃ e2, f (f (f n)) = f (f n) + e2 := ⟨f (f (f n)) - f (f n), by omega⟩
    have hle2 := (hg.le _ h21 h2M)
    have a4 := hg.anti (f (f (f n))) (f n) (by omega) a2 hle.1
    by_cases e3 : e2 = e
    · obtain ⟨fuel, rfl⟩ : ∃ g, fuel = g + 1 := ⟨fuel - 1, by omega⟩
      rw [loop_unfold c hf fuel (i + 1 + 1) (f (f n)) _ _ (by omega) h21 h2M]
      rw [if_pos (by omega)]
      exact ⟨f (f n), h21, h2M, by omega, rfl⟩
    · have hlt : e2 < e := by omega
      cases k with
      | zero =>
        refine ih e2 hlt 0 fuel (i + 1 + 1) (f (f n)) _ _ h21 h2M he2 a4 (by omega) ?_ ?_ ?_
        all_goals simp at hk ⊢
        all_goals omega
      | succ k =>
        refine ih e2 hlt k fuel (i + 1 + 1) (f (f n)) _ _ h21 h2M he2 a4 (by omega) ?_ ?_ ?_
        · rw [Nat.pow_succ] at hk
          omega
        · omega
        · omega

theorem start_fits (c : Conf) {f : Nat → Nat} {D M : Nat} (hf : Follows c f M) (hg : Good f D M)
    (x : Nat) (i fuel : Nat) (diff : Int) (h1 : 1 ≤ x) (hM : x ≤ M) (hx : x ≤ f x) (hff : x ≤ f (f x))
    (hlow : f x - x < D) (hD : D < 2 ^ 32) (hi : i ≤ 10) (hfu : 1000 ≤ fuel) :
    ∃ m, 1 ≤ m ∧ m ≤ M ∧ m ≤ f m ∧ c.loop fuel i x diff D = c.leave m := by
  refine loop_low c hf hg (f x - x) 8 fuel i x diff D h1 hM (by omega) hff (by omega) ?_ (by omega)
    (by omega)
  have : (16 : Nat) ^ 8 = 2 ^ 32 := by decide
  omega

/-! ### The numbers -/

/-- Pages taken by `n` entries of which `e` fit in a page. -/
def S (e n : Nat) : Nat := (((n + e - 1) / e) + 31) / 32 * 32

theorem ceil_le {e m n : Nat} (he : 0 < e) (h : m ≤ n) :
    (n + e - 1) / e ≤ (m + e - 1) / e + (n - m) / e + 1 := by
  rw [← Nat.lt_add_one_iff, Nat.div_lt_iff_lt_mul he]
  have h1 := Nat.div_add_mod (m + e - 1) e
  have h2 := Nat.div_add_mod (n - m) e
  have h3 := Nat.mod_lt (m + e - 1) he
  have h4 := Nat.mod_lt (n - m) he
  have e1 : ((m + e - 1) / e + (n - m) / e + 1 + 1) * e =
      e * ((m + e - 1) / e) + e * ((n - m) / e) + e + e := by
    rw [Nat.add_mul, Nat.add_mul, Nat.add_mul, Nat.mul_comm _ e, Nat.mul_comm _ e]; omega
  omega

theorem S_mono {e m n : Nat} (h : m ≤ n) : S e m ≤ S e n := by
  unfold S
  have := Nat.div_le_div_right (c := e) (show m + e - 1 ≤ n + e - 1 by omega)
  omega

theorem S_lip {e m n : Nat} (he : 0 < e) (h : m ≤ n) : S e n ≤ S e m + (n - m) / e + 32 := by
  have := ceil_le he h
  unfold S
  omega

theorem S_lower {e n : Nat} (he : 0 < e) : n ≤ e * S e n := by
  have h1 := Nat.div_add_mod (n + e - 1) e
  have h2 := Nat.mod_lt (n + e - 1) he
  have h3 : (n + e - 1) / e ≤ S e n := by unfold S; omega
  have := Nat.mul_le_mul_left e h3
  omega

theorem S_upper {e n : Nat} (he : 0 < e) : S e n ≤ n / e + 32 := by
  have := S_lip he (Nat.zero_le n)
  have h0 : S e 0 = 0 := by
    unfold S
    have : (0 + e - 1) / e = 0 := Nat.div_eq_of_lt (by omega)
    rw [this]
  rw [h0] at this
  simpa using this

/-- Pages of the variable segments when `k` entries of the collision segment fit in a page. -/
def P (nc : Bool) (k n : Nat) : Nat :=
  (if nc then 0 else S 341 n) + S 455 n + S k n + S 455 n + S 1024 ((n + 3) / 4)

/-- Entries of the collision segment in a page. -/
def perPage (L : Nat) : Nat := 4096 / (10 + statusSize L)

theorem align_eq {p : Nat} (h : p < 2 ^ 31) : align p = (p + 31) / 32 * 32 := by
  unfold align divUp
  omega

theorem onSsd_eq {g : Seg} {n e : Nat} (hf : g.flapping = false) (he : g.inPage = e) (h0 : 90 ≤ e)
    (hn : g.entries n < 2 ^ 33) : g.onSsd false n = S e (g.entries n) ∧ S e (g.entries n) < 2 ^ 28 := by
  have hb : (g.entries n + e - 1) / e ≤ (g.entries n) / e + 1 := by
    have := ceil_le (e := e) (by omega) (Nat.zero_le (g.entries n))
    have h3 : (0 + e - 1) / e = 0 := Nat.div_eq_of_lt (by omega)
    rw [h3] at this
    simpa using this
  have hb2 : (g.entries n) / e ≤ (g.entries n) / 90 := Nat.div_le_div_left h0 (by omega)
  have hS : S e (g.entries n) < 2 ^ 28 := by
    unfold S; omega
  refine ⟨?_, hS⟩
  unfold Seg.onSsd Seg.pages divUp
  rw [he, hf, align_eq (by omega)]
  unfold S at hS ⊢
  simp only [Bool.false_eq_true, if_false]
  omega

theorem perPage_cases {L : Nat} (hL : LineSize L) :
    (L = 4096 ∧ perPage L = 341) ∨ (L = 8192 ∧ perPage L = 292) ∨ (L = 16384 ∧ perPage L = 227) ∨
    (L = 32768 ∧ perPage L = 157) ∨ (L = 65536 ∧ perPage L = 97) := by
  rcases hL with rfl | rfl | rfl | rfl | rfl <;> decide

/-- Number of entries of the hash segment. -/
theorem divUp32_eq {n : Nat} (h : n + 3 < 2 ^ 32) : divUp32 n 4 = (n + 3) / 4 := by
  unfold divUp32
  omega

/-- Pages of the variable segments, hash entries given. -/
def PH (nc : Bool) (k n h : Nat) : Nat :=
  (if nc then 0 else S 341 n) + S 455 n + S k n + S 455 n + S 1024 h

theorem count_eq {L : Nat} (hL : LineSize L) (nc : Bool) {n : Nat} (hn : n < 2 ^ 32) :
    count false n 0 (varSegs L nc) = PH nc (perPage L) n (divUp32 n 4) ∧
    PH nc (perPage L) n (divUp32 n 4) < 2 ^ 31 := by
  have hd : divUp32 n 4 < 2 ^ 33 := by unfold divUp32; omega
  have hk : 90 ≤ perPage L := by rcases perPage_cases hL with h | h | h | h | h <;> omega
  have a1 := onSsd_eq (g := ⟨fun n => n, 12, false⟩) (n := n) (e := 341) rfl rfl (by omega) (by simp; omega)
  have a2 := onSsd_eq (g := ⟨fun n => n, 9, false⟩) (n := n) (e := 455) rfl rfl (by omega) (by simp; omega)
  have a3 := onSsd_eq (g := ⟨fun n => n, 10 + statusSize L, false⟩) (n := n) (e := perPage L) rfl rfl hk
    (by simp; omega)
  have a4 := onSsd_eq (g := ⟨fun n => divUp32 n 4, 4, false⟩) (n := n) (e := 1024) rfl rfl (by omega) hd
  simp only at a1 a2 a3 a4
  cases nc
  · simp only [varSegs, Bool.false_eq_true, if_false, List.cons_append, List.nil_append, count,
      a1.1, a2.1, a3.1, a4.1, PH]
    omega
  · simp only [varSegs, if_true, List.nil_append, count, a2.1, a3.1, a4.1, PH]
    omega

theorem fixed_eq : count false 0 0 fixedSegs = 8960 := by decide

theorem fixed_vol (n : Nat) (l : List Seg) : count true n 0 l = 0 := by
  induction l with
  | nil => rfl
  | cons g l ih => simpa [count, Seg.onSsd] using ih

/-- Lines left by the metadata of `n` lines. -/
def F (D L : Nat) (nc : Bool) (n : Nat) : Nat :=
  D - (8960 + PH nc (perPage L) n (divUp32 n 4) + (L / 4096 - 1)) / (L / 4096)

theorem diff_eq {c : Conf} (hL : LineSize c.L) (hv : c.vol = false) (hD : c.D < 2 ^ 32) {n : Nat}
    (hn : n < 2 ^ 32)
    (hfit : 8960 + PH c.noCleaner (perPage c.L) n (divUp32 n 4) ≤ c.D * (c.L / 4096)) :
    c.diff n = (F c.D c.L c.noCleaner n : Int) - n := by
  obtain ⟨h1, h2⟩ := count_eq hL c.noCleaner hn
  have hn' : ((n : Int) % 2 ^ 32).toNat = n := by omega
  unfold Conf.diff Conf.var Conf.fixed F
  rw [hv, fixed_eq, hn', h1]
  generalize PH c.noCleaner (perPage c.L) n (divUp32 n 4) = x at *
  have hm : (8960 + x) % 2 ^ 32 = 8960 + x := by omega
  rw [hm]
  simp only
  congr 1
  generalize c.D = D at *
  rcases hL with h | h | h | h | h <;> rw [h] at hfit ⊢ <;> simp at hfit ⊢ <;> omega

theorem PH_bounds (nc : Bool) {k m n h h' : Nat} (hk : 0 < k) (hmn : m ≤ n) (hh : h ≤ h')
    (hd : h' - h ≤ (n - m) / 4 + 1) :
    PH nc k m h ≤ PH nc k n h' ∧
    PH nc k n h' ≤ PH nc k m h + (n - m) / 341 + 2 * ((n - m) / 455) + (n - m) / k +
      ((n - m) / 4 + 1) / 1024 + 160 := by
  have a1 := S_mono (e := 341) hmn
  have a2 := S_mono (e := 455) hmn
  have a3 := S_mono (e := k) hmn
  have a4 := S_mono (e := 1024) hh
  have b1 := S_lip (e := 341) (by omega) hmn
  have b2 := S_lip (e := 455) (by omega) hmn
  have b3 := S_lip (e := k) hk hmn
  have b4 := S_lip (e := 1024) (by omega) hh
  have b5 : (h' - h) / 1024 ≤ ((n - m) / 4 + 1) / 1024 := Nat.div_le_div_right hd
  unfold PH
  cases nc <;> simp only [Bool.false_eq_true, if_false, if_true] <;> omega

theorem PH_upper (nc : Bool) {k n h : Nat} (hk : 0 < k) (hd : h ≤ n / 4 + 1) :
    PH nc k n h ≤ n / 341 + 2 * (n / 455) + n / k + (n / 4 + 1) / 1024 + 160 := by
  have a1 := S_upper (e := 341) (n := n) (by omega)
  have a2 := S_upper (e := 455) (n := n) (by omega)
  have a3 := S_upper (e := k) (n := n) hk
  have a4 := S_upper (e := 1024) (n := h) (by omega)
  have a5 : h / 1024 ≤ (n / 4 + 1) / 1024 := Nat.div_le_div_right hd
  unfold PH
  cases nc <;> simp only [Bool.false_eq_true, if_false, if_true] <;> omega

theorem divUp32_le (n : Nat) : divUp32 n 4 ≤ n / 4 + 1 := by unfold divUp32; omega

/-- The metadata fits a device that is attached. -/
theorem fit {D L : Nat} (hL : LineSize L) (hD : 40 * 2 ^ 20 / L ≤ D) (nc : Bool) {n : Nat} (hn : n ≤ D) :
    8960 + PH nc (perPage L) n (divUp32 n 4) + 2 * (L / 4096) ≤ D * (L / 4096) := by
  have hk : 0 < perPage L := by rcases perPage_cases hL with h | h | h | h | h <;> omega
  have hu := PH_upper nc hk (divUp32_le n)
  generalize PH nc (perPage L) n (divUp32 n 4) = x at *
  rcases perPage_cases hL with h | h | h | h | h <;> rw [h.2] at hu <;> rw [h.1] at hD ⊢ <;>
    simp at hD ⊢ <;> omega

theorem good {D L : Nat} (hL : LineSize L) (hD : 40 * 2 ^ 20 / L ≤ D) (hD2 : D < 2 ^ 32 - 1) (nc : Bool) :
    Good (F D L nc) D (min D (2 ^ 32 - 4)) := by
  have hk : 0 < perPage L := by rcases perPage_cases hL with h | h | h | h | h <;> omega
  have hb : ∀ m n, m ≤ n → n ≤ min D (2 ^ 32 - 4) → _ := fun m n (hmn : m ≤ n) (hn : n ≤ min D (2 ^ 32 - 4)) =>
    PH_bounds nc (k := perPage L) hk hmn (h := divUp32 m 4) (h' := divUp32 n 4)
    (by rw [divUp32_eq (by omega), divUp32_eq (by omega)]; omega)
    (by rw [divUp32_eq (by omega), divUp32_eq (by omega)]; omega)
  constructor
  · intro m n h1 hmn hn
    have := (hb m n hmn hn).1
    unfold F
    generalize PH nc (perPage L) n (divUp32 n 4) = x at *
    generalize PH nc (perPage L) m (divUp32 m 4) = y at *
    have : (8960 + y + (L / 4096 - 1)) / (L / 4096) ≤ (8960 + x + (L / 4096 - 1)) / (L / 4096) :=
      Nat.div_le_div_right (by omega)
    omega
  · intro m n h1 hmn hn
    have h2 := (hb m n hmn hn).2
    unfold F
    generalize PH nc (perPage L) n (divUp32 n 4) = x at *
    generalize PH nc (perPage L) m (divUp32 m 4) = y at *
    rcases perPage_cases hL with h | h | h | h | h <;> rw [h.2] at h2 <;> rw [h.1] <;> simp <;> omega
  · intro n h1 hn
    have := fit hL hD nc (n := n) (by omega)
    unfold F
    generalize PH nc (perPage L) n (divUp32 n 4) = x at *
    rcases hL with h | h | h | h | h <;> rw [h] at this ⊢ <;> simp at this ⊢ <;> omega
  · intro n h1 hn
    unfold F
    generalize PH nc (perPage L) n (divUp32 n 4) = x at *
    rcases hL with h | h | h | h | h <;> rw [h] <;> simp <;> omega

theorem follows {c : Conf} (hL : LineSize c.L) (hD : 40 * 2 ^ 20 / c.L ≤ c.D) (hD2 : c.D < 2 ^ 32 - 1)
    (hv : c.vol = false) :
    Follows c (F c.D c.L c.noCleaner) (min c.D (2 ^ 32 - 4)) := by
  refine ⟨by omega, fun n h1 hn => ?_⟩
  exact diff_eq hL hv (by omega) (by omega) (by have := fit hL hD c.noCleaner (n := n) (by omega); omega)

/-- The first round, when the number of hash entries wraps. -/
theorem huge {D L : Nat} (hL : LineSize L) (hD : D = 2 ^ 32 - 3 ∨ D = 2 ^ 32 - 2) (nc : Bool) :
    F D L nc (F D L nc D) + 300 ≤ F D L nc D ∧ 1 ≤ F D L nc D ∧ F D L nc D ≤ 2 ^ 32 - 4 := by
  have hk : 0 < perPage L := by rcases perPage_cases hL with h | h | h | h | h <;> omega
  have h0 : divUp32 D 4 = 0 := by rcases hD with rfl | rfl <;> rfl
  have hx := PH_upper nc (k := perPage L) (n := D) (h := divUp32 D 4) hk (by omega)
  generalize hF : F D L nc D = x1 at *
  have hx1 : x1 = D - (8960 + PH nc (perPage L) D (divUp32 D 4) + (L / 4096 - 1)) / (L / 4096) := by
    rw [← hF]; rfl
  have hle : x1 ≤ 2 ^ 32 - 4 := by
    rw [hx1]
    rcases hL with h | h | h | h | h <;> rw [h] <;> simp <;> omega
  refine ⟨?_, ?_, hle⟩
  · have hb := PH_bounds nc (k := perPage L) (m := x1) (n := D) (h := 0) (h' := 0) hk (by omega) (by omega)
      (by omega)
    have hh : S 1024 0 = 0 := by decide
    have hl := S_lower (e := 1024) (n := divUp32 x1 4) (by omega)
    rw [divUp32_eq (by omega)] at hl
    have e1 : PH nc (perPage L) x1 (divUp32 x1 4) =
        PH nc (perPage L) x1 0 + S 1024 ((x1 + 3) / 4) := by
      unfold PH; rw [hh, divUp32_eq (by omega)]; rfl
    unfold F
    rw [h0] at hx hx1
    rw [e1]
    generalize PH nc (perPage L) D 0 = y at *
    generalize PH nc (perPage L) x1 0 = z at *
    generalize S 1024 ((x1 + 3) / 4) = w at *
    clear hF
    have hX : D - x1 ≤ 45200000 := by
      clear hb hl e1 hh h0
      rcases perPage_cases hL with h | h | h | h | h <;> rw [h.2] at hx <;> rw [h.1] at hx1 <;>
        simp only [Nat.reduceDiv, Nat.div_one, Nat.reduceSub] at hx1
      · have hy : y ≤ 45180000 := by clear hx1; omega
        clear hx; omega
      · have hy : y ≤ 90000000 := by clear hx1; omega
        clear hx; omega
      · have hy : y ≤ 90000000 := by clear hx1; omega
        clear hx; omega
      · have hy : y ≤ 90000000 := by clear hx1; omega
        clear hx; omega
      · have hy : y ≤ 90000000 := by clear hx1; omega
        clear hx; omega
    have hkk : 97 ≤ perPage L := by rcases perPage_cases hL with h | h | h | h | h <;> omega
    have hdk : (D - x1) / perPage L ≤ (D - x1) / 97 := Nat.div_le_div_left hkk (by omega)
    have hyz : y ≤ z + 900000 := by
      have := hb.2
      clear hb hl e1 hx1 hx
      omega
    have hw : 1030000 ≤ w := by
      clear hb e1 hx1 hx hdk hyz
      omega
    clear hb hl e1 hx hdk
    rcases hL with h | h | h | h | h <;> rw [h] at hx1 ⊢ <;>
      simp at hx1 ⊢ <;> omega
  · rw [hx1]
    generalize PH nc (perPage L) D (divUp32 D 4) = y at *
    clear hF hx1
    rcases perPage_cases hL with h | h | h | h | h <;> rw [h.2] at hx <;> rw [h.1] <;> simp <;> omega

/-! ### Theorems -/

theorem loop_first (c : Conf) (h0 : (c.D : Int) % 2 ^ 32 ≠ 0) (d : Int) (hd : c.diff c.D = d) :
    c.calc = if d = 0 ∨ (0 < d ∧ d = c.D) then c.leave c.D
      else c.loop 2001 1 (c.D + d) d (if 0 < d ∧ d < c.D then d else c.D) := by
  unfold Conf.calc
  rw [Conf.loop, if_neg h0, if_neg (by omega), if_neg (by omega), hd]
  by_cases q : d = 0
  · simp [q]
  · by_cases q2 : 0 < d ∧ d = c.D
    · rw [if_pos q2, if_pos (.inr q2)]
    · rw [if_neg q2, if_neg q, 
        if_neg (show ¬ (d = 0 ∨ 0 < d ∧ d = (c.D : Int)) from fun h => h.elim q q2)]

/-- The search ends with a number of lines that fits. -/
theorem calc_fits {c : Conf} (hL : LineSize c.L) (hD : 40 * 2 ^ 20 / c.L ≤ c.D) (hD2 : c.D < 2 ^ 32 - 1) :
    ∃ m, 1 ≤ m ∧ m ≤ c.D ∧ c.calc = .ok m (c.var m) ∧
      (c.fixed + c.var m) * 4096 + m * c.L ≤ c.D * c.L ∧ c.fixed + c.var m < 2 ^ 32 := by
  have hLp : 0 < c.L := by rcases hL with h | h | h | h | h <;> omega
  have hD1 : 1 ≤ c.D := by
    rcases hL with h | h | h | h | h <;> rw [h] at hD <;> simp at hD <;> omega
  have h0 : (c.D : Int) % 2 ^ 32 ≠ 0 := by omega
  have hleave : ∀ m : Nat, m ≤ c.D → c.leave m = .ok m (c.var m) := by
    intro m hm
    unfold Conf.leave
    have : ((m : Int) % 2 ^ 32).toNat = m := by omega
    rw [this]
    simp only
    rw [if_neg (by omega)]
  cases hv : c.vol with
  | true =>
    have hf : c.fixed = 0 := by unfold Conf.fixed; rw [hv]; exact fixed_vol _ _
    have hvr : ∀ n, c.var n = 0 := by intro n; unfold Conf.var; rw [hv]; exact fixed_vol _ _
    have hd : c.diff c.D = 0 := by
      unfold Conf.diff
      rw [hf, hvr]
      have h2 : ((c.D * c.L : Nat) : Int) % 2 ^ 64 = (c.D * c.L : Nat) := by
        apply Int.emod_eq_of_lt (by omega)
        rcases hL with h | h | h | h | h <;> rw [h] <;> omega
      simp only [Nat.add_zero, Nat.zero_mod, Nat.zero_mul, Int.natCast_zero, Int.sub_zero]
      rw [h2, Int.natCast_mul, Int.mul_ediv_cancel _ (by omega)]
      omega
    refine ⟨c.D, hD1, Nat.le_refl _, ?_, ?_, ?_⟩
    · rw [loop_first c h0 0 hd, if_pos (.inl rfl), hleave _ (Nat.le_refl _)]
    · rw [hf, hvr]; omega
    · rw [hf, hvr]; omega
  | false =>
    have hfo := follows hL hD hD2 hv
    have hg := good hL hD hD2 c.noCleaner
    have hfitD := fit hL hD c.noCleaner (Nat.le_refl _)
    have hd := diff_eq hL hv (by omega) (by omega) (by omega : 8960 + PH c.noCleaner (perPage c.L) c.D
      (divUp32 c.D 4) ≤ c.D * (c.L / 4096))
    have hlt : F c.D c.L c.noCleaner c.D < c.D := by
      unfold F
      generalize PH c.noCleaner (perPage c.L) c.D (divUp32 c.D 4) = x at *
      rcases hL with h | h | h | h | h <;> rw [h] <;> simp <;> omega
    have hfirst : c.calc = c.loop 2001 1 (F c.D c.L c.noCleaner c.D : Nat)
        ((F c.D c.L c.noCleaner c.D : Int) - c.D) c.D := by
      rw [loop_first c h0 _ hd, if_neg (by omega), if_neg (by omega)]
      congr 1
      omega
    have key : ∃ m, 1 ≤ m ∧ m ≤ min c.D (2 ^ 32 - 4) ∧ m ≤ F c.D c.L c.noCleaner m ∧
        c.calc = c.leave m := by
      rw [hfirst]
      by_cases hbig : c.D ≤ 2 ^ 32 - 4
      · have hM : min c.D (2 ^ 32 - 4) = c.D := by omega
        rw [hM] at hfo hg ⊢
        have p1 := hg.pos c.D hD1 (Nat.le_refl _)
        have l1 := hg.le _ p1 (by omega)
        have p2 := hg.pos _ p1 (by omega)
        exact start_fits c hfo hg _ 1 2001 _ p1 (by omega)
          (hg.anti _ _ p1 (by omega) (Nat.le_refl _)) (hg.anti _ _ p2 l1.2 (Nat.le_refl _)) (by omega)
          (by omega) (by omega) (by omega)
      · have hM : min c.D (2 ^ 32 - 4) = 2 ^ 32 - 4 := by omega
        rw [hM] at hfo hg ⊢
        obtain ⟨g1, g2, g3⟩ := huge hL (by omega : c.D = 2 ^ 32 - 3 ∨ c.D = 2 ^ 32 - 2) c.noCleaner
        generalize F c.D c.L c.noCleaner c.D = x at *
        have p2 := hg.pos x g2 g3
        have a1 := hg.anti _ x p2 (by omega) g3
        have a2 := hg.lip _ x p2 (by omega) g3
        have l2 := hg.le _ p2 (by omega)
        rw [loop_unfold c hfo 2000 1 x _ _ (by omega) g2 g3, if_neg (by omega), if_neg (by omega),
          if_neg (by omega)]
        have p3 := hg.pos _ p2 (by omega)
        exact start_fits c hfo hg _ 2 2000 _ p2 (by omega) a1
          (hg.anti _ x p3 (by omega) g3) (by omega) (by omega) (by omega) (by omega)
    obtain ⟨m, h1, hm, hmf, hc⟩ := key
    have hv' : c.var m = PH c.noCleaner (perPage c.L) m (divUp32 m 4) := by
      unfold Conf.var
      rw [hv]
      have : ((m : Int) % 2 ^ 32).toNat = m := by omega
      rw [this]
      exact (count_eq hL c.noCleaner (by omega)).1
    have hlt2 := (count_eq hL c.noCleaner (n := m) (by omega)).2
    have hf : c.fixed = 8960 := by unfold Conf.fixed; rw [hv]; exact fixed_eq
    refine ⟨m, h1, by omega, by rw [hc, hleave m (by omega)], ?_, by rw [hf, hv']; omega⟩
    rw [hf, hv']
    unfold F at hmf
    generalize PH c.noCleaner (perPage c.L) m (divUp32 m 4) = x at *
    generalize c.D = D at *
    clear hfirst hfo hg hc hv' hleave hfitD hd hlt h0
    rcases hL with h | h | h | h | h <;> rw [h] at hmf ⊢ <;> simp at hmf ⊢ <;> omega

/-- What attaching accepts, and what it decides. -/
theorem attach_cases (c : Conf) (hL : LineSize c.L) :
    (c.size < 40 * 2 ^ 20 ∨ 2 ^ 32 - 1 ≤ c.size / c.L) ∧ c.attach = .error ∨
    (40 * 2 ^ 20 ≤ c.size ∧ c.size / c.L < 2 ^ 32 - 1) ∧ ∃ m, 1 ≤ m ∧ m ≤ c.D ∧
      c.attach = .ok m (c.var m) ∧ (c.fixed + c.var m) * 4096 + m * c.L ≤ c.D * c.L ∧
      c.fixed + c.var m < 2 ^ 32 := by
  have hm : minSize = 40 * 2 ^ 20 := rfl
  unfold Conf.attach
  by_cases h1 : c.size < minSize
  · rw [if_pos h1]; left; exact ⟨.inl (by omega), rfl⟩
  · rw [if_neg h1]
    by_cases h2 : c.D ≥ 2 ^ 32 - 1
    · rw [if_pos h2]; left; exact ⟨.inr h2, rfl⟩
    · rw [if_neg h2]
      right
      refine ⟨⟨by omega, ?_⟩, calc_fits hL (Nat.div_le_div_right (by omega)) (by omega)⟩
      unfold Conf.D at h2
      omega

/-- Attaching succeeds for every device of at least 40 MiB with less than `2 ^ 32 - 1` lines; no assertion
fails, whatever the size. -/
theorem attach_ok_iff (c : Conf) (hL : LineSize c.L) :
    (∃ lines var, c.attach = .ok lines var) ↔ 40 * 2 ^ 20 ≤ c.size ∧ c.size / c.L < 2 ^ 32 - 1 := by
  rcases attach_cases c hL with ⟨h, h2⟩ | ⟨h, m, -, -, h2, -⟩
  · rw [h2]; simp; omega
  · rw [h2]; exact ⟨fun _ => h, fun _ => ⟨_, _, rfl⟩⟩

theorem attach_no_bug (c : Conf) (hL : LineSize c.L) : c.attach ≠ .bug := by
  rcases attach_cases c hL with ⟨h, h2⟩ | ⟨h, m, -, -, h2, -⟩ <;> rw [h2] <;> simp

theorem attach_bounds {c : Conf} (hL : LineSize c.L) {lines var : Nat} (h : c.attach = .ok lines var) :
    1 ≤ lines ∧ lines ≤ c.D ∧ lines < 2 ^ 32 ∧ var = c.var lines ∧ c.metaPages var = c.fixed + var ∧
      c.metaPages var * 4096 + lines * c.L ≤ c.size := by
  rcases attach_cases c hL with ⟨h1, h2⟩ | ⟨h1, m, m1, m2, h2, h3, h4⟩
  · rw [h2] at h; cases h
  · rw [h2] at h
    injection h with ha hb
    subst ha hb
    have e : c.metaPages (c.var m) = c.fixed + c.var m := Nat.mod_eq_of_lt h4
    rw [e]
    have : c.D * c.L ≤ c.size := Nat.div_mul_le_self _ _
    have h5 := h1.2
    unfold Conf.D at m2
    refine ⟨m1, m2, by omega, rfl, rfl, by omega⟩

/-! The data area. The product `pages * PAGE_SIZE` has 64 bits where `PAGE_SIZE` has the type of
`sizeof` or `unsigned long`; then every line lies after the metadata and inside the device. -/

theorem offset_eq {c : Conf} {bits var : Nat} (h : c.metaPages var * 4096 < 2 ^ bits) :
    c.offset bits var = c.metaPages var * 4096 := Nat.mod_eq_of_lt h

theorem offset_64 {c : Conf} {bits var : Nat} (h : 64 ≤ bits) :
    c.metaPages var * 4096 < 2 ^ bits := by
  have h1 : c.metaPages var < 2 ^ 32 := Nat.mod_lt _ (by omega)
  have h2 : 2 ^ 64 ≤ 2 ^ bits := Nat.pow_le_pow_right (by omega) h
  omega

/-- The data of every line lies on the device, after the metadata. -/
theorem line_inside {c : Conf} (hL : LineSize c.L) {lines var bits : Nat}
    (h : c.attach = .ok lines var) (hb : c.metaPages var * 4096 < 2 ^ bits) {l : Nat} (hl : l < lines) :
    c.metaPages var * 4096 ≤ c.lineAddr bits var l ∧ c.lineAddr bits var l + c.L ≤ c.size := by
  obtain ⟨-, -, -, -, -, h6⟩ := attach_bounds hL h
  unfold Conf.lineAddr
  rw [offset_eq hb]
  have : (l + 1) * c.L ≤ lines * c.L := Nat.mul_le_mul_right _ (by omega)
  have e : (l + 1) * c.L = l * c.L + c.L := by rw [Nat.add_mul]; omega
  omega

theorem mul_apart {a b L : Nat} (h : a < b) : a * L + L ≤ b * L := by
  have : (a + 1) * L ≤ b * L := Nat.mul_le_mul_right _ h
  rw [Nat.add_mul] at this
  omega

/-- Different lines have no byte in common. -/
theorem lines_apart {c : Conf} {bits var l l' : Nat} (hne : l ≠ l') :
    Apart (c.lineAddr bits var l) c.L (c.lineAddr bits var l') c.L := by
  intro x hx
  unfold Conf.lineAddr at hx
  rcases Nat.lt_or_ge l l' with h | h
  · have := mul_apart (L := c.L) h; omega
  · have := mul_apart (L := c.L) (by omega : l' < l); omega

/-! The metadata. -/

/-- Sum of the sizes of the segments. -/
def total (n : Nat) (l : List Seg) : Nat := (l.map (fun g => g.onSsd false n)).sum

theorem count_total (n : Nat) : ∀ (l : List Seg) (p : Nat), p + total n l < 2 ^ 32 →
    count false n p l = p + total n l := by
  intro l
  induction l with
  | nil => intro p _; simp [count, total]
  | cons g l ih =>
    intro p h
    have e : total n (g :: l) = g.onSsd false n + total n l := by simp [total]
    rw [e] at h ⊢
    rw [count, Nat.mod_eq_of_lt (by omega), ih _ (by omega)]
    omega

theorem place_get (n : Nat) : ∀ (l : List Seg) (b p i : Nat) (g : Seg), p + total n l < 2 ^ 32 →
    l[i]? = some g →
    (place false n b p l)[i]? = some ⟨b + p + total n (l.take i), g.pages n, g.onSsd false n⟩ := by
  intro l
  induction l with
  | nil => intro b p i g _ h; simp at h
  | cons g0 l ih =>
    intro b p i g h hi
    have e : total n (g0 :: l) = g0.onSsd false n + total n l := by simp [total]
    rw [e] at h
    cases i with
    | zero =>
      simp at hi
      subst hi
      simp [place, total]
    | succ i =>
      simp only [List.getElem?_cons_succ] at hi
      rw [place, List.getElem?_cons_succ, Nat.mod_eq_of_lt (by omega), ih b _ i g (by omega) hi]
      simp [total]
      omega

theorem place_length (vol : Bool) (n b : Nat) : ∀ (l : List Seg) (p : Nat),
    (place vol n b p l).length = l.length := by
  intro l
  induction l with
  | nil => intro p; rfl
  | cons g l ih => intro p; simp [place, ih]

theorem total_take {n : Nat} {l : List Seg} {i j : Nat} {g : Seg} (hi : l[i]? = some g) (hij : i < j) :
    total n (l.take i) + g.onSsd false n ≤ total n (l.take j) := by
  induction l generalizing i j with
  | nil => simp at hi
  | cons g0 l ih =>
    cases j with
    | zero => omega
    | succ j =>
      cases i with
      | zero =>
        simp at hi
        subst hi
        simp [total]
      | succ i =>
        simp only [List.getElem?_cons_succ] at hi
        have := ih hi (by omega : i < j)
        simp [total] at this ⊢
        omega

theorem total_take_le {n : Nat} {l : List Seg} {i : Nat} {g : Seg} (hi : l[i]? = some g) :
    total n (l.take i) + g.onSsd false n ≤ total n l := by
  have h := List.getElem?_eq_some_iff.1 hi
  have := total_take (n := n) hi (j := l.length) h.1
  rwa [List.take_length] at this

/-- Facts about one segment that keep its entries inside its pages. -/
structure Fits (g : Seg) (n : Nat) : Prop where
  pos : 0 < g.entrySize
  small : g.entrySize ≤ 4096
  pages : g.pages n ≤ align (g.pages n)
  ssd : g.onSsd false n = align (g.pages n) * (if g.flapping then 2 else 1)

theorem fits_of {g : Seg} {n : Nat} (h1 : 0 < g.entrySize) (h2 : g.entrySize ≤ 4096)
    (h3 : g.pages n ≤ 2 ^ 30) : Fits g n := by
  have e : align (g.pages n) = (g.pages n + 31) / 32 * 32 := by
    unfold align divUp
    omega
  refine ⟨h1, h2, by omega, ?_⟩
  unfold Seg.onSsd
  rw [e]
  cases g.flapping <;> simp <;> omega

theorem pages_le {g : Seg} {n : Nat} (h : 90 ≤ g.inPage) (hn : g.entries n < 2 ^ 32) :
    g.pages n ≤ 2 ^ 30 := by
  unfold Seg.pages divUp
  have h1 : (g.entries n + g.inPage - 1) / g.inPage ≤ g.entries n / g.inPage + 1 := by
    rw [Nat.div_le_iff_le_mul_add_pred (by omega)]
    have := Nat.div_add_mod (g.entries n) g.inPage
    have h2 := Nat.mod_lt (g.entries n) (by omega : g.inPage > 0)
    rw [Nat.mul_add]
    omega
  have h2 : g.entries n / g.inPage ≤ g.entries n / 90 := Nat.div_le_div_left h (by omega)
  omega

theorem segs_fit {c : Conf} (hL : LineSize c.L) {n : Nat} (hn : n < 2 ^ 32) {g : Seg} (hg : g ∈ c.segs) :
    Fits g n := by
  unfold Conf.segs at hg
  rw [List.mem_append] at hg
  rcases hg with hg | hg
  · simp only [fixedSegs, List.mem_cons, List.not_mem_nil, or_false] at hg
    rcases hg with rfl | rfl | rfl | rfl | rfl | rfl | rfl | rfl <;>
      exact fits_of (by simp) (by simp) (by simp [Seg.pages, Seg.inPage, divUp])
  · have hd : divUp32 n 4 < 2 ^ 32 := by unfold divUp32; omega
    have hs : 10 + statusSize c.L ≤ 42 := by
      unfold statusSize
      rcases hL with h | h | h | h | h <;> rw [h] <;> simp
    have hp : 90 ≤ perPage c.L := by rcases perPage_cases hL with h | h | h | h | h <;> omega
    have hg' : g = ⟨fun n => n, 12, false⟩ ∨ g = ⟨fun n => n, 9, false⟩ ∨
        g = ⟨fun n => n, 10 + statusSize c.L, false⟩ ∨ g = ⟨fun n => divUp32 n 4, 4, false⟩ := by
      unfold varSegs at hg
      cases c.noCleaner <;> simp at hg <;> grind
    rcases hg' with rfl | rfl | rfl | rfl
    · exact fits_of (by simp) (by simp) (pages_le (by simp [Seg.inPage]) hn)
    · exact fits_of (by simp) (by simp) (pages_le (by simp [Seg.inPage]) hn)
    · exact fits_of (by simp; omega) (by simp; omega) (pages_le (by simpa [Seg.inPage, perPage] using hp) hn)
    · exact fits_of (by simp) (by simp) (pages_le (by simp [Seg.inPage]) hd)

theorem var_total {L : Nat} (hL : LineSize L) (nc : Bool) {n : Nat} (hn : n < 2 ^ 32) :
    total n (varSegs L nc) < 2 ^ 31 := by
  have hd : divUp32 n 4 < 2 ^ 33 := by unfold divUp32; omega
  have hk : 90 ≤ perPage L := by rcases perPage_cases hL with h | h | h | h | h <;> omega
  have a1 := onSsd_eq (g := ⟨fun n => n, 12, false⟩) (n := n) (e := 341) rfl rfl (by omega) (by simp; omega)
  have a2 := onSsd_eq (g := ⟨fun n => n, 9, false⟩) (n := n) (e := 455) rfl rfl (by omega) (by simp; omega)
  have a3 := onSsd_eq (g := ⟨fun n => n, 10 + statusSize L, false⟩) (n := n) (e := perPage L) rfl rfl hk
    (by simp; omega)
  have a4 := onSsd_eq (g := ⟨fun n => divUp32 n 4, 4, false⟩) (n := n) (e := 1024) rfl rfl (by omega) hd
  simp only at a1 a2 a3 a4
  cases nc
  · simp only [varSegs, Bool.false_eq_true, if_false, List.cons_append, List.nil_append, total, List.map,
      List.sum_cons, List.sum_nil, a1.1, a2.1, a3.1, a4.1]
    omega
  · simp only [varSegs, if_true, List.nil_append, total, List.map, List.sum_cons, List.sum_nil, a2.1, a3.1,
      a4.1]
    omega

theorem fixed_total (n : Nat) : total n fixedSegs = 8960 := by
  have : total n fixedSegs = total 0 fixedSegs := rfl
  rw [this]
  decide

/-- The place of every segment. -/
theorem region_get {c : Conf} (hL : LineSize c.L) (hv : c.vol = false) {lines : Nat} (hn : lines < 2 ^ 32)
    {i : Nat} {g : Seg} (hi : c.segs[i]? = some g) :
    (c.regions lines)[i]? = some ⟨total lines (c.segs.take i), g.pages lines, g.onSsd false lines⟩ := by
  have ht := var_total hL c.noCleaner hn
  have hf : c.fixed = 8960 := by unfold Conf.fixed; rw [hv]; exact fixed_eq
  have e0 : place c.vol 0 0 0 fixedSegs = place false lines 0 0 fixedSegs := by rw [hv]; rfl
  have hlen : (place false lines 0 0 fixedSegs).length = 8 := rfl
  have hlen' : fixedSegs.length = 8 := rfl
  unfold Conf.regions
  rw [e0, hf, hv]
  unfold Conf.segs at hi ⊢
  rcases Nat.lt_or_ge i 8 with h | h
  · rw [List.getElem?_append_left (by omega)] at hi ⊢
    rw [place_get lines _ 0 0 i g (by rw [fixed_total]; omega) hi, List.take_append_of_le_length (by omega)]
    simp
  · rw [List.getElem?_append_right (by omega)] at hi ⊢
    rw [hlen'] at hi
    rw [hlen, place_get lines _ 8960 0 (i - 8) g (by omega) hi, List.take_append, hlen',
      List.take_of_length_le (l := fixedSegs) (by omega)]
    have : total lines (fixedSegs ++ (varSegs c.L c.noCleaner).take (i - 8)) =
        8960 + total lines ((varSegs c.L c.noCleaner).take (i - 8)) := by
      rw [← fixed_total lines]
      simp [total]
    rw [this]

theorem total_segs {c : Conf} (hL : LineSize c.L) (hv : c.vol = false) {lines : Nat} (hn : lines < 2 ^ 32) :
    total lines c.segs = c.fixed + c.var lines := by
  have ht := var_total hL c.noCleaner hn
  have hf : c.fixed = 8960 := by unfold Conf.fixed; rw [hv]; exact fixed_eq
  have e : ((lines : Int) % 2 ^ 32).toNat = lines := by omega
  unfold Conf.var
  rw [hv, e, count_total _ _ _ (by omega), hf, ← fixed_total lines]
  simp [Conf.segs, total]

/-- Bytes of one entry inside one copy. -/
theorem entry_bounds {g : Seg} {n k : Nat} (hf : Fits g n) (hk : k < g.entries n) :
    k / g.inPage < align (g.pages n) ∧ k % g.inPage * g.entrySize + g.entrySize ≤ 4096 := by
  have hp : 0 < g.inPage := Nat.div_pos hf.small hf.pos
  constructor
  · refine Nat.lt_of_lt_of_le ?_ hf.pages
    unfold Seg.pages divUp
    rw [Nat.div_lt_iff_lt_mul hp]
    have h1 := Nat.div_add_mod (g.entries n + g.inPage - 1) g.inPage
    have h2 := Nat.mod_lt (g.entries n + g.inPage - 1) hp
    rw [Nat.mul_comm] at h1
    omega
  · have h1 := mul_apart (L := g.entrySize) (Nat.mod_lt k hp)
    have : g.inPage * g.entrySize ≤ 4096 := Nat.div_mul_le_self _ _
    omega

/-- A copy of a segment: 0, or 1 if two are kept. -/
def CopyOf (g : Seg) (copy : Nat) : Prop := copy = 0 ∨ g.flapping = true ∧ copy = 1

theorem copy_bounds {g : Seg} {n copy p : Nat} (hf : Fits g n) (hc : CopyOf g copy)
    (hp : p < align (g.pages n)) : align (g.pages n) * copy + p < g.onSsd false n := by
  rw [hf.ssd]
  rcases hc with rfl | ⟨h, rfl⟩
  · cases g.flapping <;> simp <;> omega
  · rw [h]; simp; omega

/-- Every metadata entry lies before the data area. -/
theorem entry_before_data {c : Conf} (hL : LineSize c.L) (hv : c.vol = false) {lines var : Nat}
    (h : c.attach = .ok lines var) {i copy k : Nat} {g : Seg} {r : Region}
    (hg : c.segs[i]? = some g) (hr : (c.regions lines)[i]? = some r) (hc : CopyOf g copy)
    (hk : k < g.entries lines) :
    entryAddr r g lines copy k + g.entrySize ≤ c.metaPages var * 4096 := by
  obtain ⟨-, -, h3, h4, h5, -⟩ := attach_bounds hL h
  have hf := segs_fit hL h3 (List.mem_of_getElem? hg)
  rw [region_get hL hv h3 hg] at hr
  cases hr
  obtain ⟨b1, b2⟩ := entry_bounds hf hk
  have b3 := copy_bounds hf hc b1
  have b4 := total_take_le (n := lines) hg
  rw [total_segs hL hv h3] at b4
  rw [h5, h4]
  unfold entryAddr
  simp only
  generalize align (g.pages lines) * copy = q at *
  generalize k / g.inPage = d at *
  generalize k % g.inPage * g.entrySize = o at *
  omega

/-- Different metadata entries have no byte in common. -/
theorem entries_apart {c : Conf} (hL : LineSize c.L) (hv : c.vol = false) {lines var : Nat}
    (h : c.attach = .ok lines var) {i copy k i' copy' k' : Nat} {g g' : Seg} {r r' : Region}
    (hg : c.segs[i]? = some g) (hr : (c.regions lines)[i]? = some r) (hc : CopyOf g copy)
    (hk : k < g.entries lines)
    (hg' : c.segs[i']? = some g') (hr' : (c.regions lines)[i']? = some r') (hc' : CopyOf g' copy')
    (hk' : k' < g'.entries lines) (hne : (i, copy, k) ≠ (i', copy', k')) :
    Apart (entryAddr r g lines copy k) g.entrySize (entryAddr r' g' lines copy' k') g'.entrySize := by
  obtain ⟨-, -, h3, -, -, -⟩ := attach_bounds hL h
  have hf := segs_fit hL h3 (List.mem_of_getElem? hg)
  have hf' := segs_fit hL h3 (List.mem_of_getElem? hg')
  rw [region_get hL hv h3 hg] at hr
  rw [region_get hL hv h3 hg'] at hr'
  cases hr
  cases hr'
  obtain ⟨b1, b2⟩ := entry_bounds hf hk
  obtain ⟨b1', b2'⟩ := entry_bounds hf' hk'
  have b3 := copy_bounds hf hc b1
  have b3' := copy_bounds hf' hc' b1'
  unfold entryAddr
  simp only
  intro x hx
  rcases Nat.lt_trichotomy i i' with hlt | heq | hgt
  · have b4 := total_take (n := lines) hg hlt
    generalize align (g.pages lines) * copy = q at *
    generalize k / g.inPage = d at *
    generalize align (g'.pages lines) * copy' = q' at *
    generalize k' / g'.inPage = d' at *
    generalize k % g.inPage * g.entrySize = o at *
    generalize k' % g'.inPage * g'.entrySize = o' at *
    omega
  · subst heq
    rw [hg] at hg'
    cases hg'
    have hp : 0 < g.inPage := Nat.div_pos hf.small hf.pos
    have key : ∀ a b : Nat, a ≠ b → align (g.pages lines) * copy + k / g.inPage = align (g.pages lines) * copy' + k' / g.inPage → a = k % g.inPage → b = k' % g.inPage → False := by
      intro a b hab he ha hb
      have e1 : a * g.entrySize = k % g.inPage * g.entrySize := by rw [ha]
      have e2 : b * g.entrySize = k' % g.inPage * g.entrySize := by rw [hb]
      rcases Nat.lt_or_ge a b with h1 | h1
      · have := mul_apart (L := g.entrySize) h1; omega
      · have := mul_apart (L := g.entrySize) (by omega : b < a); omega
    by_cases he : align (g.pages lines) * copy + k / g.inPage = align (g.pages lines) * copy' + k' / g.inPage
    · by_cases hm : k % g.inPage = k' % g.inPage
      · have hcc : copy = copy' := by
          clear hx key b3 b3' b2 b2' hm
          generalize k / g.inPage = d at *
          generalize k' / g.inPage = d' at *
          rcases hc with rfl | ⟨-, rfl⟩ <;> rcases hc' with rfl | ⟨-, rfl⟩ <;> first | rfl | omega
        subst hcc
        have hd : k / g.inPage = k' / g.inPage := by omega
        apply hne
        have : k = k' := by rw [← Nat.div_add_mod k g.inPage, hd, hm, Nat.div_add_mod]
        rw [this]
      · exact key _ _ hm he rfl rfl
    · omega
  · have b4 := total_take (n := lines) hg' hgt
    generalize align (g.pages lines) * copy = q at *
    generalize k / g.inPage = d at *
    generalize align (g'.pages lines) * copy' = q' at *
    generalize k' / g'.inPage = d' at *
    generalize k % g.inPage * g.entrySize = o at *
    generalize k' % g'.inPage * g'.entrySize = o' at *
    omega

/-- Regions of different segments have no page in common, and lie before the data area. -/
theorem regions_apart {c : Conf} (hL : LineSize c.L) (hv : c.vol = false) {lines var : Nat}
    (h : c.attach = .ok lines var) {i i' : Nat} {r r' : Region}
    (hr : (c.regions lines)[i]? = some r) (hr' : (c.regions lines)[i']? = some r') (hne : i ≠ i') :
    Apart r.start r.size r'.start r'.size ∧ r.pages ≤ r.size ∧ r.start + r.size ≤ c.metaPages var := by
  obtain ⟨-, -, h3, h4, h5, -⟩ := attach_bounds hL h
  have hlen : (c.regions lines).length = c.segs.length := by
    simp [Conf.regions, Conf.segs, place_length]
  obtain ⟨g, hg⟩ : ∃ g, c.segs[i]? = some g := by
    have := (List.getElem?_eq_some_iff.1 hr).1
    exact ⟨_, List.getElem?_eq_getElem (by omega)⟩
  obtain ⟨g', hg'⟩ : ∃ g, c.segs[i']? = some g := by
    have := (List.getElem?_eq_some_iff.1 hr').1
    exact ⟨_, List.getElem?_eq_getElem (by omega)⟩
  have hf := segs_fit hL h3 (List.mem_of_getElem? hg)
  rw [region_get hL hv h3 hg] at hr
  rw [region_get hL hv h3 hg'] at hr'
  cases hr
  cases hr'
  simp only
  refine ⟨?_, ?_, ?_⟩
  · intro x hx
    rcases Nat.lt_or_ge i i' with hlt | hge
    · have := total_take (n := lines) hg hlt; omega
    · have := total_take (n := lines) hg' (by omega : i' < i); omega
  · have := hf.pages
    rw [hf.ssd]
    split <;> omega
  · have b4 := total_take_le (n := lines) hg
    rw [total_segs hL hv h3] at b4
    rw [h5, h4]
    exact b4

/-! `PAGE_SIZE` is an `int` in the posix environment: from 4 GiB of metadata on, the start of the data area
wraps. -/

/-- With 32 bits the data area is right if the metadata is smaller than 4 GiB. -/
theorem posix_line_inside_partial {c : Conf} (hL : LineSize c.L) {lines var : Nat}
    (h : c.attach = .ok lines var) (hb : c.metaPages var < 2 ^ 20) {l : Nat} (hl : l < lines) :
    c.metaPages var * 4096 ≤ c.lineAddr 32 var l ∧ c.lineAddr 32 var l + c.L ≤ c.size :=
  line_inside hL h (by omega) hl

/-- From 4 GiB on, line 0 always lies inside the metadata. -/
theorem posix_overlap {c : Conf} {var : Nat} (hb : 2 ^ 20 ≤ c.metaPages var) :
    c.lineAddr 32 var 0 < c.metaPages var * 4096 := by
  unfold Conf.lineAddr Conf.offset
  have := Nat.mod_lt (c.metaPages var * 4096) (by omega : 2 ^ 32 > 0)
  omega

/-- A cache device of 400 GiB with lines of 4 KiB is accepted, and its first line shares bytes with a
metadata entry. -/
theorem posix_overwrites_metadata : ∃ (c : Conf) (lines var i k l : Nat) (g : Seg) (r : Region), LineSize c.L ∧
    c.size = 400 * 2 ^ 30 ∧ c.attach = .ok lines var ∧ c.segs[i]? = some g ∧
    (c.regions lines)[i]? = some r ∧ k < g.entries lines ∧ l < lines ∧
    ¬ Apart (entryAddr r g lines 0 k) g.entrySize (c.lineAddr 32 var l) c.L := by
  refine ⟨⟨400 * 2 ^ 30, 4096, false, false⟩, 103758592, 1090048, 8, 14141952, 0,
    ⟨fun n => n, 12, false⟩, ⟨8960, 304278, 304288⟩, .inl rfl, rfl, by decide +kernel, rfl,
    by decide +kernel, by decide, by decide, fun h => h 206569472 ?_⟩
  decide +kernel

/-! Concrete devices that meet the hypotheses. -/

example : Conf.attach ⟨40 * 2 ^ 20, 4096, false, false⟩ = .ok 1120 160 := by decide +kernel
example : Conf.attach ⟨40 * 2 ^ 20 - 1, 4096, false, false⟩ = .error := by decide +kernel
example : Conf.attach ⟨2 ^ 44 - 8193, 4096, true, false⟩ = .ok 4262679997 32278336 := by decide +kernel
example : Conf.attach ⟨2 ^ 44 - 8193, 4096, true, true⟩ = .ok 4294967293 0 := by decide +kernel
example : Conf.attach ⟨2 ^ 44, 4096, true, false⟩ = .error := by decide +kernel
example : Conf.attach ⟨100 * 2 ^ 30 + 123456789, 65536, true, false⟩ = .ok 1638189 24544 := by
  decide +kernel

/-- Entry 500 of the LRU segment and the second copy of the core configuration of a device of 100 GiB. -/
example : let c : Conf := ⟨100 * 2 ^ 30, 65536, true, false⟩
    c.attach = .ok 1636306 24544 ∧ (c.segs[8]?.map Seg.entrySize) = some 9 ∧
    (c.regions 1636306)[8]? = some ⟨8960, 3597, 3616⟩ ∧
    entryAddr ⟨8960, 3597, 3616⟩ ⟨fun n => n, 9, false⟩ 1636306 0 500 = 36700160 + 4096 + 45 * 9 ∧
    (c.regions 1636306)[5]? = some ⟨192, 128, 256⟩ ∧
    entryAddr ⟨192, 128, 256⟩ ⟨fun _ => 4096, 128, true⟩ 1636306 1 33 = (192 + 128 + 1) * 4096 + 128 ∧
    c.lineAddr 64 24544 0 = (8960 + 24544) * 4096 := by
  decide +kernel

end Verif.Layout
