import Verif.Lemma.Realloc

/-! C62: the reallocator. The caller holds no block or one of exactly the size in the limit; every block is freed
once, by the function of the allocator it came from; memory grows to what is asked, keeps its content when asked to
and is zero beyond; a failure changes nothing; nobody else's memory is touched.

Partial: `size * count` is not checked to fit in 64 bits (`overflow_lies`). -/

namespace Verif.Realloc

/-! ## What the caller sees -/

/-- The bytes the caller has. -/
def bytes (s : St) : List Nat :=
  match s.mem with
  | none => []
  | some p => match s.heap p with
    | none => []
    | some b => b.data

theorem bytes_owns {s : St} {p : Nat} {b : Blk} (hp : s.mem = some p) (hb : s.heap p = some b) :
    bytes s = b.data := by
  unfold bytes; rw [hp]; simp only []; rw [hb]

/-- No block is freed by the wrong function, twice, or touched out of bounds; no assertion fails. -/
theorem no_misuse {s : St} (h : Reach Init Step s) : s.bad = false ∧ s.bug = false :=
  ⟨(Inv.reach h).ok, (Inv.reach h).as⟩

/-- The caller has as many bytes as the limit says. -/
theorem limit_true {s : St} (h : Reach Init Step s) : (bytes s).length = s.limit := by
  rcases (Inv.reach h).own with ⟨hm, hl⟩ | ⟨p, b, o⟩
  · unfold bytes; rw [hm, hl]; rfl
  · rw [bytes_owns o.ptr o.blk, o.len]

/-- Memory of others is untouched: at other addresses than the block held and the one given nothing changes; what
was held is given back when it is not held any more. -/
theorem frame {s : St} (h : Reach Init Step s) {size count : Nat} {q : Option Nat} {cp : Bool}
    (hc : Can s (.realloc size count q cp)) :
    (∀ x, s.mem ≠ some x → q ≠ some x → (realloc s size count q cp).1.heap x = s.heap x) ∧
    (∀ x, s.mem = some x → (realloc s size count q cp).1.mem ≠ some x →
      (realloc s size count q cp).1.heap x = none) ∧
    (∀ x, q = some x → (realloc s size count q cp).1.mem ≠ some x →
      (realloc s size count q cp).1.heap x = none) := by
  have i := Inv.reach h
  obtain ⟨hz, hq⟩ := hc
  unfold realloc
  simp only []
  split
  · split
    · rename_i hn
      cases q with
      | none => exact ⟨fun _ _ _ => rfl, fun x h1 h2 => absurd h1 h2, fun x e => (by cases e)⟩
      | some q =>
        rcases i.own with ⟨hm, hl⟩ | ⟨p, b, o⟩
        · simp only []
          rw [grow_none hm]
          refine ⟨fun x _ h2 => set_ne _ _ (fun e => h2 (by rw [e])), fun x h1 => ?_, fun x h1 h2 => absurd h1 h2⟩
          rw [hm] at h1; cases h1
        · simp only []
          rw [grow_some o _ q (hq q rfl) hn cp i.ok i.as]
          refine ⟨fun x h1 h2 => ?_, fun x h1 _ => ?_, fun x h1 h2 => absurd h1 h2⟩
          · rw [o.ptr] at h1
            exact (set_ne _ _ (fun e => h1 (by rw [e]))).trans (set_ne _ _ (fun e => h2 (by rw [e])))
          · rw [o.ptr] at h1
            cases h1
            exact set_same _ _ _
    · rename_i hn
      have e : (if cp = true then zero s (size * count % W) else s).mem = s.mem := by
        split
        · unfold zero
          split
          · rfl
          · split <;> rfl
        · rfl
      refine ⟨fun x h1 _ => ?_, fun x h1 h2 => absurd (e.trans h1) h2, fun x h1 h2 => ?_⟩
      · cases cp
        · rfl
        · rcases i.own with ⟨hm, hl⟩ | ⟨p, b, o⟩
          · simp only [if_true, zero]; rw [hm]
          · simp only [if_true]
            rw [zero_some o _ i.ok]
            rw [o.ptr] at h1
            exact set_ne _ _ (fun e => h1 (by rw [e]))
      · have hx := hq x h1
        cases cp
        · exact hx
        · rcases i.own with ⟨hm, hl⟩ | ⟨p, b, o⟩
          · simp only [if_true, zero]; rw [hm]; exact hx
          · simp only [if_true]
            rw [zero_some o _ i.ok]
            have : x ≠ p := by intro e; have := o.blk; rw [← e, hx] at this; cases this
            exact (set_ne _ _ this).trans hx
  · rename_i h0
    have h0 : size = 0 ∧ count = 0 := by
      by_cases e : size = 0
      · exact ⟨e, hz.1 e⟩
      · exact absurd ⟨e, fun e' => e (hz.2 e')⟩ h0
    rw [if_pos h0]
    rcases i.own with ⟨hm, hl⟩ | ⟨p, b, o⟩
    · rw [hm]; simp only []; rw [if_pos hl]
      exact ⟨fun _ _ _ => rfl, fun x h1 => (by cases h1), fun x h1 _ => hq x h1⟩
    · rw [o.ptr]
      simp only []
      have := o.pos
      rw [if_pos (by omega), free_some o i.ok]
      refine ⟨fun x h1 _ => set_ne _ _ (fun e => h1 (by rw [e])), fun x h1 _ => ?_, fun x h1 _ => ?_⟩
      · cases h1; exact set_same _ _ _
      · have hx := hq x h1
        have : x ≠ p := by intro e; have := o.blk; rw [← e, hx] at this; cases this
        exact (set_ne _ _ this).trans hx

/-- It fails exactly when more is needed than there is and the allocator has nothing; then nothing changes. -/
theorem fails_iff {s : St} (h : Reach Init Step s) {size count : Nat} {q : Option Nat} {cp : Bool}
    (hc : Can s (.realloc size count q cp)) :
    ((realloc s size count q cp).2 = false ↔ s.limit < size * count % W ∧ q = none) ∧
      ((realloc s size count q cp).2 = false → (realloc s size count q cp).1 = s) := by
  have i := Inv.reach h
  obtain ⟨hz, _⟩ := hc
  unfold realloc
  simp only []
  split
  · split
    · rename_i hn
      cases q with
      | none => exact ⟨⟨fun _ => ⟨hn, rfl⟩, fun _ => rfl⟩, fun _ => rfl⟩
      | some q => exact ⟨⟨fun e => (by cases e), fun e => (by cases e.2)⟩, fun e => (by cases e)⟩
    · rename_i hn
      exact ⟨⟨fun e => (by cases e), fun e => absurd e.1 hn⟩, fun e => (by cases e)⟩
  · rename_i h0
    have h0 : size = 0 ∧ count = 0 := by
      by_cases e : size = 0
      · exact ⟨e, hz.1 e⟩
      · exact absurd ⟨e, fun e' => e (hz.2 e')⟩ h0
    rw [if_pos h0]
    have hn : ¬ s.limit < size * count % W := by rw [h0.1]; simp
    rcases i.own with ⟨hm, hl⟩ | ⟨p, b, o⟩
    · rw [hm]; simp only []; rw [if_pos hl]
      exact ⟨⟨fun e => (by cases e), fun e => absurd e.1 hn⟩, fun e => (by cases e)⟩
    · rw [o.ptr]
      simp only []
      have := o.pos
      rw [if_pos (by omega)]
      exact ⟨⟨fun e => (by cases e), fun e => absurd e.1 hn⟩, fun e => (by cases e)⟩

/-- Reallocation with copy: the content up to what is asked is kept, the rest is zero, up to the limit. -/
theorem copy_spec {s : St} (h : Reach Init Step s) {size count : Nat} {q : Option Nat}
    (hc : Can s (.realloc size count q true)) (hs : 0 < size) (hr : (realloc s size count q true).2 = true) :
    let n := size * count % W
    let t := (realloc s size count q true).1
    t.limit = max s.limit n ∧
      bytes t = (bytes s).take n ++ List.replicate (max s.limit n - min s.limit n) 0 := by
  have i := Inv.reach h
  obtain ⟨hz, hq⟩ := hc
  have hcnt : count ≠ 0 := fun e => (by have := hz.2 e; omega)
  simp only []
  unfold realloc at hr ⊢
  simp only [] at hr ⊢
  rw [if_pos ⟨by omega, hcnt⟩] at hr ⊢
  generalize size * count % W = n at hr ⊢
  by_cases hn : s.limit < n
  · rw [if_pos hn] at hr ⊢
    cases q with
    | none => cases hr
    | some q =>
      simp only []
      have e1 : max s.limit n = n := by omega
      have e2 : min s.limit n = s.limit := by omega
      rw [e1, e2]
      rcases i.own with ⟨hm, hl⟩ | ⟨p, b, o⟩
      · rw [grow_none hm]
        refine ⟨rfl, ?_⟩
        rw [bytes_owns rfl (set_same _ _ _)]
        have : bytes s = [] := by unfold bytes; rw [hm]
        rw [this, hl]; simp
      · rw [grow_some o n q (hq q rfl) hn true i.ok i.as]
        have hne : q ≠ p := by
          intro e; have := o.blk; rw [← e, hq q rfl] at this; cases this
        refine ⟨rfl, ?_⟩
        rw [bytes_owns rfl ((set_ne _ _ hne).trans (set_same _ _ _)), bytes_owns o.ptr o.blk,
          List.take_of_length_le (by rw [o.len]; omega)]
        rfl
  · rw [if_neg hn]
    simp only [if_true]
    have e1 : max s.limit n = s.limit := by omega
    have e2 : min s.limit n = n := by omega
    rw [e1, e2]
    rcases i.own with ⟨hm, hl⟩ | ⟨p, b, o⟩
    · have : zero s n = { s with bad := s.bad || decide (n < s.limit) } := by unfold zero; rw [hm]
      rw [this]
      refine ⟨rfl, ?_⟩
      unfold bytes
      rw [hm, hl]
      simp
    · rw [zero_some o n i.ok]
      refine ⟨rfl, ?_⟩
      rw [bytes_owns o.ptr o.blk]
      show bytes { s with heap := _ } = _
      unfold bytes
      simp only []
      rw [o.ptr]
      simp only []
      rw [set_same]

/-- Reallocation without copy: fresh zeroes when it grows, no change otherwise. -/
theorem plain_spec {s : St} (h : Reach Init Step s) {size count : Nat} {q : Option Nat}
    (hc : Can s (.realloc size count q false)) (hs : 0 < size) (hr : (realloc s size count q false).2 = true) :
    let n := size * count % W
    let t := (realloc s size count q false).1
    t.limit = max s.limit n ∧ bytes t = if s.limit < n then List.replicate n 0 else bytes s := by
  have i := Inv.reach h
  obtain ⟨hz, hq⟩ := hc
  have hcnt : count ≠ 0 := fun e => (by have := hz.2 e; omega)
  simp only []
  unfold realloc at hr ⊢
  simp only [] at hr ⊢
  rw [if_pos ⟨by omega, hcnt⟩] at hr ⊢
  generalize size * count % W = n at hr ⊢
  by_cases hn : s.limit < n
  · rw [if_pos hn] at hr ⊢
    rw [if_pos hn]
    cases q with
    | none => cases hr
    | some q =>
      simp only []
      have e1 : max s.limit n = n := by omega
      rw [e1]
      rcases i.own with ⟨hm, hl⟩ | ⟨p, b, o⟩
      · rw [grow_none hm]
        refine ⟨rfl, ?_⟩
        rw [bytes_owns rfl (set_same _ _ _)]
      · rw [grow_some o n q (hq q rfl) hn false i.ok i.as]
        have hne : q ≠ p := by
          intro e; have := o.blk; rw [← e, hq q rfl] at this; cases this
        refine ⟨rfl, ?_⟩
        rw [bytes_owns rfl ((set_ne _ _ hne).trans (set_same _ _ _))]
        rfl
  · rw [if_neg hn, if_neg hn]
    have e1 : max s.limit n = s.limit := by omega
    rw [e1]
    exact ⟨rfl, rfl⟩

/-- On success there is room for all elements, provided their size fits in 64 bits. -/
theorem room_partial {s : St} (h : Reach Init Step s) {size count : Nat} {q : Option Nat} {cp : Bool}
    (hc : Can s (.realloc size count q cp)) (hs : 0 < size) (hw : size * count < W)
    (hr : (realloc s size count q cp).2 = true) :
    size * count ≤ (bytes (realloc s size count q cp).1).length := by
  have hl := limit_true (Reach.step h ⟨_, hc, rfl⟩)
  have hl : (bytes (realloc s size count q cp).1).length = (realloc s size count q cp).1.limit := hl
  rw [hl]
  have e : size * count % W = size * count := Nat.mod_eq_of_lt hw
  cases cp with
  | true =>
    have := (copy_spec h hc hs hr).1
    rw [e] at this
    rw [this]; omega
  | false =>
    have := (plain_spec h hc hs hr).1
    rw [e] at this
    rw [this]; omega

/-- Giving all back: nothing is held, always with success. -/
theorem deinit_spec {s : St} (h : Reach Init Step s) (q : Option Nat) (cp : Bool)
    (hq : ∀ a, q = some a → s.heap a = none) :
    (realloc s 0 0 q cp).2 = true ∧ (realloc s 0 0 q cp).1.mem = none ∧ (realloc s 0 0 q cp).1.limit = 0 ∧
      ∀ x, s.mem = some x → (realloc s 0 0 q cp).1.heap x = none := by
  have hc : Can s (.realloc 0 0 q cp) := ⟨Iff.rfl, hq⟩
  have f := (frame h hc).2.1
  have i := Inv.reach h
  have key : (realloc s 0 0 q cp).2 = true ∧ (realloc s 0 0 q cp).1.mem = none ∧
      (realloc s 0 0 q cp).1.limit = 0 := by
    unfold realloc
    simp only []
    rw [if_neg (by simp), if_pos (by simp)]
    rcases i.own with ⟨hm, hl⟩ | ⟨p, b, o⟩
    · rw [hm]; simp only []; rw [if_pos hl]; exact ⟨rfl, hm, hl⟩
    · rw [o.ptr]
      simp only []
      have := o.pos
      rw [if_pos (by omega)]
      exact ⟨rfl, rfl, rfl⟩
  exact ⟨key.1, key.2.1, key.2.2, fun x hx => f x hx (by rw [key.2.1]; exact fun e => (by cases e))⟩

/-- A write is seen, at its place only. -/
theorem write_spec {s : St} (h : Reach Init Step s) {k : Nat} (hk : k < s.limit) (v : Nat) :
    bytes (write s k v) = (bytes s).set k v := by
  rcases (Inv.reach h).own with ⟨_, hl⟩ | ⟨p, b, o⟩
  · omega
  · rw [bytes_owns o.ptr o.blk]
    unfold write
    rw [o.ptr]
    simp only []
    rw [o.blk]
    unfold bytes
    simp only []
    rw [set_same]

/-! ## Cases and witness -/

/-- Nothing allocated anywhere. -/
def empty : St := { mem := none, limit := 0, heap := fun _ => none }

theorem empty_ok : Reach Init Step empty := Reach.init ⟨empty, rfl, rfl, rfl⟩

/-- Two bytes at 5, the second written, grown to four at 6. -/
def two : St := (realloc empty 1 2 (some 5) true).1

theorem two_ok : Reach Init Step two :=
  Reach.step empty_ok ⟨.realloc 1 2 (some 5) true, ⟨by simp, fun _ _ => rfl⟩, rfl⟩

def wrote : St := write two 1 9

theorem wrote_ok : Reach Init Step wrote := Reach.step two_ok ⟨.write 1 9, by show 1 < 2; omega, rfl⟩

theorem can4 (cp : Bool) : Can wrote (.realloc 2 2 (some 6) cp) := ⟨by simp, fun a e => (by cases e; rfl)⟩

example : bytes (realloc wrote 2 2 (some 6) true).1 = [0, 9, 0, 0] :=
  (copy_spec wrote_ok (can4 true) (by decide) rfl).2
example : bytes (realloc wrote 2 2 (some 6) false).1 = [0, 0, 0, 0] :=
  (plain_spec wrote_ok (can4 false) (by decide) rfl).2
example : 2 * 2 ≤ (bytes (realloc wrote 2 2 (some 6) true).1).length :=
  room_partial wrote_ok (can4 true) (by decide) (by unfold W; omega) rfl
example : (realloc wrote 2 2 (some 6) true).1.heap 5 = none :=
  (frame wrote_ok (can4 true)).2.1 5 rfl (fun e => (by cases e))
example : (realloc wrote 2 2 none true).1 = wrote :=
  (fails_iff wrote_ok (size := 2) (count := 2) (q := none) (cp := true) ⟨by simp, fun a e => (by cases e)⟩).2 rfl
example : (realloc wrote 0 0 none false).1.heap 5 = none :=
  (deinit_spec wrote_ok none false (fun _ e => (by cases e))).2.2.2 5 rfl
example : bytes wrote = [0, 9] := write_spec two_ok (k := 1) (by show 1 < 2; omega) 9
example : (bytes wrote).length = 2 := limit_true wrote_ok
example : wrote.bad = false := (no_misuse wrote_ok).1

/-- Witness: sizes whose product wraps succeed with no memory at all. -/
theorem overflow_lies : ∃ size count, 0 < size ∧ 0 < count ∧ Can empty (.realloc size count none false) ∧
    (realloc empty size count none false).2 = true ∧ (realloc empty size count none false).1.mem = none :=
  ⟨4294967296, 4294967296, by omega, by omega, ⟨by simp, fun _ e => (by cases e)⟩, by decide +kernel,
    by decide +kernel⟩

end Verif.Realloc
