import Verif.Model.Evict
import Verif.Lemma.Common

/-! Helper lemmas for `Props/Evict`. -/

namespace Verif.Evict

open Lru (Key freeId getKey)

/-! ## The iterator -/

/-- List `l` has not been exhausted: bit `W - 1` of the mask stands for the current list. -/
def It.avail (it : It) (l : Nat) : Bool := it.mask.testBit ((l + (W - 1) - it.idx) % W)

structure ItOk (it : It) : Prop where
  idx : it.idx < W
  mask : it.mask < 2 ^ W
  num : it.num = (List.range W).countP it.avail

theorem testBit_rotate {m s j : Nat} (hm : m < 2 ^ W) (hs : s ≤ W) (hj : j < W) :
    (rotateRight m s).testBit j = m.testBit ((j + s) % W) := by
  unfold rotateRight
  rw [Nat.testBit_and, Nat.testBit_two_pow_sub_one, Nat.testBit_or, Nat.testBit_shiftRight,
    Nat.testBit_shiftLeft]
  simp only [hj, decide_true, Bool.and_true]
  have big : ∀ i, W ≤ i → m.testBit i = false := fun i hi =>
    Nat.testBit_lt_two_pow (Nat.lt_of_lt_of_le hm (Nat.pow_le_pow_right (by omega) hi))
  by_cases h : j + s < W
  · rw [Nat.mod_eq_of_lt h]
    have : ¬ (j ≥ W - s) := by omega
    simp [this, Nat.add_comm]
  · rw [big (s + j) (by omega)]
    have : j ≥ W - s := by omega
    have e : (j + s) % W = j - (W - s) := by
      rw [Nat.mod_eq_sub_mod (by omega), Nat.mod_eq_of_lt (by omega)]; omega
    simp [this, e]

theorem rotate_lt (m s : Nat) : rotateRight m s < 2 ^ W := by
  unfold rotateRight
  exact Nat.and_lt_two_pow _ (by decide)

theorem ffs_spec (m : Nat) :
    (ffs m = 0 ∧ ∀ j, j < W → m.testBit j = false) ∨
    (0 < ffs m ∧ ffs m ≤ W ∧ m.testBit (ffs m - 1) = true ∧
      ∀ j, j < ffs m - 1 → m.testBit j = false) := by
  unfold ffs
  cases h : (List.range W).find? (fun j => m.testBit j) with
  | none =>
    left
    refine ⟨rfl, fun j hj => ?_⟩
    have := List.find?_eq_none.1 h j (List.mem_range.2 hj)
    simpa using this
  | some j =>
    right
    rw [List.find?_range_eq_some] at h
    obtain ⟨h1, h2, h3⟩ := h
    have h2 := List.mem_range.1 h2
    simp only [Nat.add_sub_cancel]
    refine ⟨by omega, by omega, h1, fun k hk => ?_⟩
    simpa using h3 k hk

theorem avail_next {it : It} (h : ItOk it) (l : Nat) (hl : l < W) :
    it.next.avail l = it.avail l := by
  unfold It.avail It.next
  have hf : ffs it.mask ≤ W := by
    rcases ffs_spec it.mask with ⟨h, _⟩ | ⟨_, h, _⟩ <;> omega
  have hi := h.idx
  simp only
  rw [testBit_rotate h.mask hf (Nat.mod_lt _ (by decide))]
  congr 1
  simp only [W] at *
  omega

theorem countP_avail_next {it : It} (h : ItOk it) :
    (List.range W).countP it.next.avail = (List.range W).countP it.avail :=
  List.countP_congr fun l hl => by rw [avail_next h l (List.mem_range.1 hl)]

theorem ok_next {it : It} (h : ItOk it) : ItOk it.next :=
  ⟨Nat.mod_lt _ (by decide), rotate_lt _ _, by rw [countP_avail_next h]; exact h.num⟩

theorem mask_of_num {it : It} (h : ItOk it) (hn : 0 < it.num) : ∃ j, j < W ∧ it.mask.testBit j = true := by
  rw [h.num, List.countP_pos_iff] at hn
  obtain ⟨l, _, hl⟩ := hn
  exact ⟨_, Nat.mod_lt _ (by decide), hl⟩

theorem isEmpty_eq (it : It) : it.isEmpty = !it.mask.testBit (W - 1) := by
  unfold It.isEmpty
  rw [Nat.one_shiftLeft]
  cases h : it.mask.testBit (W - 1) with
  | true =>
    have : it.mask &&& 2 ^ (W - 1) ≠ 0 := by
      intro e
      have h2 : (it.mask &&& 2 ^ (W - 1)).testBit (W - 1) = true := by
        rw [Nat.testBit_and, h, Nat.testBit_two_pow]; rfl
      rw [e] at h2; simp at h2
    simpa using this
  | false =>
    have : it.mask &&& 2 ^ (W - 1) = 0 := by
      apply Nat.eq_of_testBit_eq
      intro i
      rw [Nat.testBit_and, Nat.testBit_two_pow]
      by_cases e : W - 1 = i
      · rw [← e, h]; simp
      · simp [e]
    simpa using this

theorem avail_cur (it : It) (_h : it.idx < W) : it.avail it.idx = !it.isEmpty := by
  rw [isEmpty_eq]
  unfold It.avail
  have : (it.idx + (W - 1) - it.idx) % W = W - 1 := by simp only [W] at *; omega
  rw [this]; simp

theorem next_avail {it : It} (h : ItOk it) (hn : 0 < it.num) : it.next.isEmpty = false := by
  obtain ⟨j, hj, hb⟩ := mask_of_num h hn
  rcases ffs_spec it.mask with ⟨_, h0⟩ | ⟨h1, h2, h3, _⟩
  · rw [h0 j hj] at hb; exact absurd hb (by simp)
  · rw [isEmpty_eq]
    have : it.next.mask.testBit (W - 1) = true := by
      unfold It.next
      rw [testBit_rotate h.mask h2 (by decide)]
      have : (W - 1 + ffs it.mask) % W = ffs it.mask - 1 := by simp only [W] at *; omega
      rw [this]; exact h3
    rw [this]; rfl

theorem avail_setEmpty {it : It} (h : it.idx < W) (l : Nat) (hl : l < W) :
    it.setEmpty.avail l = (it.avail l && l != it.idx) := by
  unfold It.avail It.setEmpty
  simp only
  rw [Nat.testBit_and, Nat.testBit_xor, Nat.testBit_two_pow_sub_one, Nat.one_shiftLeft,
    Nat.testBit_two_pow]
  have hm : (l + (W - 1) - it.idx) % W < W := Nat.mod_lt _ (by decide)
  have : (W - 1 = (l + (W - 1) - it.idx) % W) ↔ l = it.idx := by
    simp only [W] at *; omega
  by_cases e : l = it.idx
  · rw [decide_eq_true hm, decide_eq_true (this.2 e), e]
    simp
  · have e' : ¬ (W - 1 = (l + (W - 1) - it.idx) % W) := fun x => e (this.1 x)
    simp [hm, e, e']

theorem ok_setEmpty {it : It} (h : ItOk it) (he : it.isEmpty = false) : ItOk it.setEmpty := by
  refine ⟨h.idx, ?_, ?_⟩
  · exact Nat.lt_of_le_of_lt Nat.and_le_left h.mask
  · show it.num - 1 = _
    rw [h.num]
    have key : ∀ (xs : List Nat), xs.Nodup → it.idx ∈ xs → (∀ x ∈ xs, x < W) →
        xs.countP it.avail = xs.countP it.setEmpty.avail + 1 := by
      intro xs
      induction xs with
      | nil => intro _ h; exact absurd h (by simp)
      | cons x xs ih =>
        intro hn hm hb
        rw [List.nodup_cons] at hn
        have hbx := hb x (by simp)
        have hb' : ∀ y ∈ xs, y < W := fun y hy => hb y (by simp [hy])
        rw [List.countP_cons, List.countP_cons]
        by_cases e : x = it.idx
        · subst e
          have h1 : it.avail it.idx = true := by rw [avail_cur it h.idx, he]; rfl
          have h2 : it.setEmpty.avail it.idx = false := by
            rw [avail_setEmpty h.idx _ h.idx]; simp
          have h3 : xs.countP it.avail = xs.countP it.setEmpty.avail := by
            apply List.countP_congr
            intro y hy
            rw [avail_setEmpty h.idx y (hb' y hy)]
            have : y ≠ it.idx := fun e => hn.1 (e ▸ hy)
            simp [this]
          rw [h1, h2, h3]; simp
        · have h2 : it.setEmpty.avail x = it.avail x := by
            rw [avail_setEmpty h.idx x hbx]; simp [e]
          rw [ih hn.2 (by simpa [Ne.symm e] using hm) hb', h2]
          omega
    rw [key (List.range W) List.nodup_range (List.mem_range.2 h.idx) (fun x hx => List.mem_range.1 hx)]
    rfl

theorem ok_init (start : Nat) : ItOk (It.init start) := by
  have hi : (It.init start).idx < W := Nat.mod_lt _ (by decide)
  refine ⟨hi, by show 2 ^ W - 1 < 2 ^ W; decide, ?_⟩
  have : ∀ l, (It.init start).avail l = true := by
    intro l
    unfold It.avail It.init
    simp only [Nat.testBit_two_pow_sub_one]
    simpa using Nat.mod_lt _ (by decide)
  have h2 : (List.range W).countP (It.init start).avail = (List.range W).length :=
    List.countP_eq_length.2 fun l _ => this l
  rw [h2]; simp [It.init]

theorem init_avail (start l : Nat) : (It.init start).avail l = true := by
  unfold It.avail It.init
  simp only [Nat.testBit_two_pow_sub_one]
  simpa using Nat.mod_lt _ (by decide)

/-! ## The invariant -/

/-- List `l` was searched completely: it was locked and each line on it was rejected. -/
def Tried (log : List Ev) (l : Nat) : Prop :=
  ∃ xs, Ev.visit l xs ∈ log ∧ ∀ c ∈ xs, ∃ w, Ev.reject c w ∈ log

theorem Tried.mono {log : List Ev} {l : Nat} (h : Tried log l) (e : Ev) : Tried (e :: log) l := by
  obtain ⟨xs, h1, h2⟩ := h
  exact ⟨xs, .tail _ h1, fun c hc => (h2 c hc).imp fun _ h => .tail _ h⟩

structure Base (s : St) (t : Nat) (p : Th) : Prop where
  it : ItOk p.it
  avail : ∀ l, l < W → p.it.avail l = false → Tried p.log l
  dst : p.req.dst ≠ freeId
  got : p.got ≤ p.req.want
  slots : p.req.want - p.got ≤ misses (p.map.drop p.reqIdx)
  core : ∀ (i c : Nat), p.map[i]? = some (.remapped c) → s.core c = (p.req.core, p.req.first + i)
  count : misses p.map + p.got = misses p.map0
  map : ∀ i : Nat, p.map[i]? = p.map0[i]? ∨
    (p.map0[i]? = some .miss ∧ ∃ c, p.map[i]? = some (.remapped c))

/-- The lines a thread has locked. -/
def Held (s : St) (t : Nat) (p : Th) (x : Option Nat) : Prop :=
  ∀ c, s.writer c = some t ↔ p.had c = true ∨ .remapped c ∈ p.map ∨ x = some c

/-- The buckets a thread has locked. -/
def Buckets (hb : Nat × Nat → Nat) (s : St) (t : Nat) (p : Th) (x : Option Nat) : Prop :=
  ∀ b, s.hash b = some t ↔ p.req.own b = true ∨ ∃ c, x = some c ∧ hb (s.core c) = b

/-- The line at hand. -/
structure Cur (s : St) (t : Nat) (p : Th) (c : Nat) : Prop where
  wr : s.writer c = some t
  had : p.had c = false
  fresh : .remapped c ∉ p.map
  clean : s.dirty c = false

/-- The list at hand. -/
structure At (s : St) (t : Nat) (p : Th) (l : Nat) : Prop where
  lock : s.lruLock l = some t
  idx : l = p.it.idx
  some : p.it.isEmpty = false

/-- Lines from position `n` on have been rejected. -/
structure Seen (s : St) (p : Th) (l n : Nat) : Prop where
  visit : .visit l (s.seq (p.req.list l)) ∈ p.log
  rej : ∀ (i c : Nat), n ≤ i → (s.seq (p.req.list l))[i]? = some c → ∃ w, .reject c w ∈ p.log

def Safe (s : St) (p : Th) (c : Nat) : Prop := p.req.inRange (s.core c) = false

/-- The bucket of the line at hand is locked, except for lines of the free list. -/
def Th.bucket (p : Th) (c : Nat) : Option Nat := if p.req.src = freeId then none else some c

structure Taken (hb : Nat × Nat → Nat) (s : St) (t : Nat) (p : Th) (c : Nat) : Prop where
  held : Held s t p (some c)
  hash : Buckets hb s t p (p.bucket c)
  cur : Cur s t p c
  safe : p.req.src ≠ freeId → Safe s p c
  num : 0 < p.it.num

/-- What holds at a position. -/
def PcOk (hb : Nat × Nat → Nat) (s : St) (t : Nat) (p : Th) : Pc → Prop
  | .idle => True
  | .pick => Held s t p none ∧ Buckets hb s t p none ∧ 0 < p.it.num
  | .scan l n => Held s t p none ∧ Buckets hb s t p none ∧ At s t p l ∧ Seen s p l n ∧
      p.got < p.req.want
  | .chk l n c => Held s t p (some c) ∧ Buckets hb s t p none ∧ Cur s t p c ∧ At s t p l ∧
      Seen s p l (n + 1) ∧ (s.seq (p.req.list l))[n]? = some c ∧ p.got < p.req.want ∧
      p.req.src ≠ freeId
  | .tryHash l n c => Held s t p (some c) ∧ Buckets hb s t p none ∧ Cur s t p c ∧ At s t p l ∧
      Seen s p l (n + 1) ∧ (s.seq (p.req.list l))[n]? = some c ∧ p.got < p.req.want ∧
      p.req.src ≠ freeId ∧ Safe s p c
  | .wait l n c => Held s t p (some c) ∧ Buckets hb s t p (some c) ∧ Cur s t p c ∧ At s t p l ∧
      Seen s p l (n + 1) ∧ (s.seq (p.req.list l))[n]? = some c ∧ p.got < p.req.want ∧
      p.req.src ≠ freeId ∧ Safe s p c
  | .unhash l n c => Held s t p (some c) ∧ Buckets hb s t p (some c) ∧ Cur s t p c ∧ At s t p l ∧
      Seen s p l n ∧ p.got < p.req.want
  | .unline l n c => Held s t p (some c) ∧ Buckets hb s t p none ∧ Cur s t p c ∧ At s t p l ∧
      Seen s p l n ∧ p.got < p.req.want
  | .found l c => Taken hb s t p c ∧ At s t p l ∧ c ∈ s.seq (p.req.list l) ∧ p.got < p.req.want
  | .release l (some c) => Taken hb s t p c ∧ At s t p l ∧ p.got < p.req.want
  | .release l none => Held s t p none ∧ Buckets hb s t p none ∧ At s t p l ∧ Tried p.log l ∧
      p.got < p.req.want
  | .mark _ (some c) => Taken hb s t p c ∧ p.got < p.req.want
  | .mark l none => Held s t p none ∧ Buckets hb s t p none ∧ l = p.it.idx ∧
      p.it.isEmpty = false ∧ Tried p.log l ∧ p.got < p.req.want
  | .got c => Taken hb s t p c ∧ p.got < p.req.want
  | .inval c => Taken hb s t p c ∧ p.got < p.req.want ∧ p.map[p.reqIdx]? = some .miss ∧
      p.req.src ≠ freeId
  | .assign c => Held s t p (some c) ∧ Buckets hb s t p none ∧ Cur s t p c ∧ p.got < p.req.want ∧
      p.map[p.reqIdx]? = some .miss ∧ 0 < p.it.num
  | .done => Held s t p none ∧ Buckets hb s t p none ∧
      (p.got = p.req.want ∨ ∀ l, l < W → Tried p.log l)

def ThOk (hb : Nat × Nat → Nat) (s : St) (t : Nat) (p : Th) : Prop :=
  p.pc = .idle ∨ (Base s t p ∧ PcOk hb s t p p.pc)

/-- The lists and line locks. -/
structure Glob (s : St) : Prop where
  nodup : ∀ k, (s.seq k).Nodup
  once : ∀ k k' c, c ∈ s.seq k → c ∈ s.seq k' → k = k'
  idx : ∀ (k : Key) c, c ∈ s.seq k → k.idx = c % W
  excl : ∀ c, s.writer c ≠ none → s.readers c = 0
  clean : ∀ (k : Key) c, c ∈ s.seq k → k.clean = true → s.dirty c = true →
    ∃ t, s.writer c = some t ∧ (s.th t).pc = .idle
  bug : s.bug = false

structure Inv (hb : Nat × Nat → Nat) (s : St) : Prop where
  glob : Glob s
  th : ∀ t, ThOk hb s t (s.th t)

/-- A change that thread `t` cannot notice. -/
structure Frame (s s' : St) (t : Nat) : Prop where
  wr : ∀ c, s'.writer c = some t ↔ s.writer c = some t
  dirty : ∀ c, s.writer c = some t → s'.dirty c = s.dirty c
  core : ∀ c, s.writer c = some t → s'.core c = s.core c
  seq : ∀ k : Key, s.lruLock k.idx = some t → s'.seq k = s.seq k
  lru : ∀ l, s.lruLock l = some t → s'.lruLock l = some t
  hash : ∀ b, s'.hash b = some t ↔ s.hash b = some t

theorem list_idx (r : Req) (l : Nat) : (r.list l).idx = l := rfl

section frame
variable {hb : Nat × Nat → Nat} {s s' : St} {t : Nat} {p : Th}

theorem Held.frame {x : Option Nat} (h : Held s t p x) (f : Frame s s' t) : Held s' t p x :=
  fun c => (f.wr c).trans (h c)

theorem Cur.frame {c : Nat} (h : Cur s t p c) (f : Frame s s' t) : Cur s' t p c :=
  ⟨(f.wr c).2 h.wr, h.had, h.fresh, (f.dirty c h.wr).trans h.clean⟩

theorem At.frame {l : Nat} (h : At s t p l) (f : Frame s s' t) : At s' t p l :=
  ⟨f.lru l h.lock, h.idx, h.some⟩

theorem seq_frame {l : Nat} (h : At s t p l) (f : Frame s s' t) :
    s'.seq (p.req.list l) = s.seq (p.req.list l) := f.seq _ h.lock

theorem Seen.frame {l n : Nat} (h : Seen s p l n) (a : At s t p l) (f : Frame s s' t) :
    Seen s' p l n := by
  have e := seq_frame a f
  exact ⟨by rw [e]; exact h.visit, by rw [e]; exact h.rej⟩

theorem Buckets.frame_none (h : Buckets hb s t p none) (f : Frame s s' t) :
    Buckets hb s' t p none := fun b => (f.hash b).trans ((h b).trans (by simp))

theorem Buckets.frame {c : Nat} (h : Buckets hb s t p (some c)) (hc : s.writer c = some t)
    (f : Frame s s' t) : Buckets hb s' t p (some c) := by
  intro b
  rw [f.hash b, h b]
  simp only [Option.some.injEq, exists_eq_left']
  rw [f.core c hc]

theorem Safe.frame {c : Nat} (h : Safe s p c) (hc : s.writer c = some t) (f : Frame s s' t) :
    Safe s' p c := by
  unfold Safe; rw [f.core c hc]; exact h

theorem Taken.frame {c : Nat} (h : Taken hb s t p c) (f : Frame s s' t) : Taken hb s' t p c := by
  refine ⟨h.held.frame f, ?_, h.cur.frame f, fun hs => (h.safe hs).frame h.cur.wr f, h.num⟩
  have := h.hash
  unfold Th.bucket at *
  by_cases e : p.req.src = freeId
  · rw [if_pos e] at *; exact this.frame_none f
  · rw [if_neg e] at *; exact this.frame h.cur.wr f

theorem Held.of_remapped {x : Option Nat} (h : Held s t p x) {i c : Nat}
    (hi : p.map[i]? = some (.remapped c)) : s.writer c = some t :=
  (h c).2 (.inr (.inl (List.mem_of_getElem? hi)))

theorem PcOk.held (h : PcOk hb s t p p.pc) (hi : p.pc ≠ .idle) : ∃ x, Held s t p x := by
  cases hp : p.pc with
  | idle => exact absurd hp hi
  | pick => rw [hp] at h; exact ⟨_, h.1⟩
  | scan l n => rw [hp] at h; exact ⟨_, h.1⟩
  | chk l n c => rw [hp] at h; exact ⟨_, h.1⟩
  | tryHash l n c => rw [hp] at h; exact ⟨_, h.1⟩
  | wait l n c => rw [hp] at h; exact ⟨_, h.1⟩
  | unhash l n c => rw [hp] at h; exact ⟨_, h.1⟩
  | unline l n c => rw [hp] at h; exact ⟨_, h.1⟩
  | found l c => rw [hp] at h; exact ⟨_, h.1.held⟩
  | release l r =>
    rw [hp] at h
    cases r with
    | none => exact ⟨_, h.1⟩
    | some c => exact ⟨_, h.1.held⟩
  | mark l r =>
    rw [hp] at h
    cases r with
    | none => exact ⟨_, h.1⟩
    | some c => exact ⟨_, h.1.held⟩
  | got c => rw [hp] at h; exact ⟨_, h.1.held⟩
  | inval c => rw [hp] at h; exact ⟨_, h.1.held⟩
  | assign c => rw [hp] at h; exact ⟨_, h.1⟩
  | done => rw [hp] at h; exact ⟨_, h.1⟩

theorem Base.frame {x : Option Nat} (h : Base s t p) (hx : Held s t p x) (f : Frame s s' t) :
    Base s' t p :=
  { h with core := fun i c hi => (f.core c (hx.of_remapped hi)).trans (h.core i c hi) }

theorem ThOk.frame (h : ThOk hb s t p) (f : Frame s s' t) : ThOk hb s' t p := by
  rcases h with h | ⟨h1, h2⟩
  · exact .inl h
  by_cases hi : p.pc = .idle
  · exact .inl hi
  refine .inr ⟨?_, ?_⟩
  · obtain ⟨x, hx⟩ := h2.held hi
    exact h1.frame hx f
  cases hp : p.pc with
  | idle => trivial
  | pick => rw [hp] at h2; obtain ⟨a, b, c⟩ := h2; exact ⟨a.frame f, b.frame_none f, c⟩
  | scan l n =>
    rw [hp] at h2; obtain ⟨a, b, c, d, e⟩ := h2
    exact ⟨a.frame f, b.frame_none f, c.frame f, d.frame c f, e⟩
  | chk l n c =>
    rw [hp] at h2; obtain ⟨a, b, u, c, d, e, g⟩ := h2
    exact ⟨a.frame f, b.frame_none f, u.frame f, c.frame f, d.frame c f,
      by rw [seq_frame c f]; exact e, g⟩
  | tryHash l n c =>
    rw [hp] at h2; obtain ⟨a, b, u, c, d, e, g, i, j⟩ := h2
    exact ⟨a.frame f, b.frame_none f, u.frame f, c.frame f, d.frame c f,
      by rw [seq_frame c f]; exact e, g, i, j.frame u.wr f⟩
  | wait l n c =>
    rw [hp] at h2; obtain ⟨a, b, u, c, d, e, g, i, j⟩ := h2
    exact ⟨a.frame f, b.frame u.wr f, u.frame f, c.frame f, d.frame c f,
      by rw [seq_frame c f]; exact e, g, i, j.frame u.wr f⟩
  | unhash l n c =>
    rw [hp] at h2; obtain ⟨a, b, u, c, d, e⟩ := h2
    exact ⟨a.frame f, b.frame u.wr f, u.frame f, c.frame f, d.frame c f, e⟩
  | unline l n c =>
    rw [hp] at h2; obtain ⟨a, b, u, c, d, e⟩ := h2
    exact ⟨a.frame f, b.frame_none f, u.frame f, c.frame f, d.frame c f, e⟩
  | found l c =>
    rw [hp] at h2; obtain ⟨a, b, c, d⟩ := h2
    exact ⟨a.frame f, b.frame f, by rw [seq_frame b f]; exact c, d⟩
  | release l r =>
    rw [hp] at h2
    cases r with
    | none =>
      obtain ⟨a, b, c, d⟩ := h2
      exact ⟨a.frame f, b.frame_none f, c.frame f, d⟩
    | some c =>
      obtain ⟨a, b, c⟩ := h2
      exact ⟨a.frame f, b.frame f, c⟩
  | mark l r =>
    rw [hp] at h2
    cases r with
    | none =>
      obtain ⟨a, b, c⟩ := h2
      exact ⟨a.frame f, b.frame_none f, c⟩
    | some c =>
      obtain ⟨a, b⟩ := h2
      exact ⟨a.frame f, b⟩
  | got c => rw [hp] at h2; exact ⟨h2.1.frame f, h2.2⟩
  | inval c => rw [hp] at h2; exact ⟨h2.1.frame f, h2.2⟩
  | assign c =>
    rw [hp] at h2; obtain ⟨a, b, u, d⟩ := h2
    exact ⟨a.frame f, b.frame_none f, u.frame f, d⟩
  | done => rw [hp] at h2; obtain ⟨a, b, c⟩ := h2; exact ⟨a.frame f, b.frame_none f, c⟩

theorem Frame.refl (s : St) (t : Nat) : Frame s s t :=
  ⟨fun _ => Iff.rfl, fun _ _ => rfl, fun _ _ => rfl, fun _ _ => rfl, fun _ h => h, fun _ => Iff.rfl⟩

end frame

/-! ## Lists -/

theorem mem_shift {q : Key → List Nat} {c : Nat} {a b : Key} (hn : (q a).Nodup)
    (ho : ∀ k, c ∈ q k → k = a) (k : Key) (x : Nat) :
    x ∈ shift q c a b k ↔ if x = c then k = b else x ∈ q k := by
  unfold shift
  by_cases e : x = c
  · subst e
    rw [if_pos rfl]
    by_cases hk : k = b
    · simp [hk]
    · simp only [hk, iff_false, if_false]
      by_cases ha : k = a
      · subst ha
        simp only [if_true]
        rw [List.Nodup.mem_erase_iff hn]; simp
      · simp only [if_neg ha]
        exact fun h => ha (ho k h)
  · rw [if_neg e]
    have : ∀ k, x ∈ (if k = a then (q k).erase c else q k) ↔ x ∈ q k := by
      intro k
      by_cases ha : k = a
      · simp only [if_pos ha]; exact List.mem_erase_of_ne e
      · simp only [if_neg ha]
    by_cases hk : k = b
    · simp only [if_pos hk, List.mem_cons, e, false_or]; exact this k
    · simp only [if_neg hk]; exact this k

theorem nodup_shift {q : Key → List Nat} {c : Nat} {a b : Key} (hn : ∀ k, (q k).Nodup)
    (ho : ∀ k, c ∈ q k → k = a) (k : Key) : (shift q c a b k).Nodup := by
  unfold shift
  have h1 : (if k = a then (q k).erase c else q k).Nodup := by
    by_cases ha : k = a
    · simp only [if_pos ha]; exact (hn k).erase c
    · simp only [if_neg ha]; exact hn k
  have h2 : c ∉ (if k = a then (q k).erase c else q k) := by
    by_cases ha : k = a
    · simp only [if_pos ha]
      rw [List.Nodup.mem_erase_iff (hn k)]; simp
    · simp only [if_neg ha]; exact fun h => ha (ho k h)
  by_cases hk : k = b
  · simp only [if_pos hk]; exact List.nodup_cons.2 ⟨h2, h1⟩
  · simp only [if_neg hk]; exact h1

theorem shift_other {q : Key → List Nat} {c : Nat} {a b k : Key} (ha : k ≠ a) (hb : k ≠ b) :
    shift q c a b k = q k := by
  simp [shift, ha, hb]

/-- Moving a line keeps the lists in order. -/
theorem glob_shift {s s' : St} {c : Nat} {a b : Key} (h : Glob s) (hc : c ∈ s.seq a)
    (hi : b.idx = a.idx) (hseq : s'.seq = shift s.seq c a b) (hw : s'.writer = s.writer)
    (hr : s'.readers = s.readers) (hd : s'.dirty = s.dirty) (hbug : s'.bug = s.bug)
    (hth : ∀ t, (s.th t).pc = .idle → (s'.th t).pc = .idle)
    (hcl : b.clean = true → s.dirty c = true → ∃ t, s.writer c = some t ∧ (s.th t).pc = .idle) :
    Glob s' := by
  have ho : ∀ k, c ∈ s.seq k → k = a := fun k hk => h.once k a c hk hc
  have hm := mem_shift (b := b) (h.nodup a) ho
  refine ⟨?_, ?_, ?_, ?_, ?_, hbug.trans h.bug⟩
  · intro k; rw [hseq]; exact nodup_shift h.nodup ho k
  · intro k k' x hx hx'
    rw [hseq, hm] at hx hx'
    by_cases e : x = c
    · simp only [if_pos e] at hx hx'; rw [hx, hx']
    · simp only [if_neg e] at hx hx'; exact h.once k k' x hx hx'
  · intro k x hx
    rw [hseq, hm] at hx
    by_cases e : x = c
    · simp only [if_pos e] at hx; rw [hx, hi, e]; exact h.idx a c hc
    · simp only [if_neg e] at hx; exact h.idx k x hx
  · intro x; rw [hw, hr]; exact h.excl x
  · intro k x hx hk hdx
    rw [hseq, hm] at hx
    rw [hd] at hdx
    rw [hw]
    by_cases e : x = c
    · simp only [if_pos e] at hx
      rw [e] at hdx ⊢
      obtain ⟨t, h1, h2⟩ := hcl (hx ▸ hk) hdx
      exact ⟨t, h1, hth t h2⟩
    · simp only [if_neg e] at hx
      obtain ⟨t, h1, h2⟩ := h.clean k x hx hk hdx
      exact ⟨t, h1, hth t h2⟩

/-- A step that leaves lists, readers, dirty bits alone, and takes or drops no line lock of an
idle thread. -/
theorem glob_same {s s' : St} (h : Glob s) (hseq : s'.seq = s.seq) (hd : s'.dirty = s.dirty)
    (hr : s'.readers = s.readers) (hbug : s'.bug = false)
    (hw : ∀ c, s'.writer c ≠ none → s.readers c = 0)
    (hth : ∀ t c, s.writer c = some t → (s.th t).pc = .idle →
      (s.dirty c = true ∧ ∃ k : Key, k.clean = true ∧ c ∈ s.seq k) →
      s'.writer c = some t ∧ (s'.th t).pc = .idle) : Glob s' := by
  refine ⟨?_, ?_, ?_, ?_, ?_, hbug⟩
  · rw [hseq]; exact h.nodup
  · rw [hseq]; exact h.once
  · rw [hseq]; exact h.idx
  · rw [hr]; exact hw
  · intro k c hc hk hdc
    rw [hseq] at hc
    rw [hd] at hdc
    obtain ⟨t, h1, h2⟩ := h.clean k c hc hk hdc
    obtain ⟨h3, h4⟩ := hth t c h1 h2 ⟨hdc, k, hk, hc⟩
    exact ⟨t, h3, h4⟩

/-! ## Preservation -/

theorem upd_same {α : Type} (f : Nat → α) (i : Nat) (a : α) : upd f i a i = a := by simp [upd]

theorem upd_ne {α : Type} (f : Nat → α) {i j : Nat} (a : α) (h : j ≠ i) : upd f i a j = f j := by
  simp [upd, h]

theorem inv_own {hb : Nat × Nat → Nat} {s s' : St} {t : Nat} (h : Inv hb s) (hg : Glob s')
    (hth : ∀ t', t' ≠ t → s'.th t' = s.th t') (hf : ∀ t', t' ≠ t → Frame s s' t')
    (ht : ThOk hb s' t (s'.th t)) : Inv hb s' := by
  refine ⟨hg, fun t' => ?_⟩
  by_cases e : t' = t
  · rw [e]; exact ht
  · rw [hth t' e]; exact (h.th t').frame (hf t' e)

theorem inv_env {hb : Nat × Nat → Nat} {s s' : St} (h : Inv hb s) (hg : Glob s')
    (hth : s'.th = s.th) (hf : ∀ t', (s.th t').pc ≠ .idle → Frame s s' t') : Inv hb s' := by
  refine ⟨hg, fun t' => ?_⟩
  rw [hth]
  by_cases e : (s.th t').pc = .idle
  · exact .inl e
  · exact (h.th t').frame (hf t' e)

/-- Steps of `t` that change its own state only. -/
theorem inv_local {hb : Nat × Nat → Nat} {s : St} {t : Nat} {p : Th} (h : Inv hb s)
    (hi : (s.th t).pc ≠ .idle) (ht : ThOk hb s t p) :
    Inv hb { s with th := upd s.th t p } := by
  have fr : ∀ t', Frame s { s with th := upd s.th t p } t' := fun t' =>
    ⟨fun _ => Iff.rfl, fun _ _ => rfl, fun _ _ => rfl, fun _ _ => rfl, fun _ h => h, fun _ => Iff.rfl⟩
  refine inv_own (t := t) h ?_ (fun t' e => upd_ne _ _ e) (fun t' _ => fr t') ?_
  · refine glob_same h.glob rfl rfl rfl h.glob.bug h.glob.excl ?_
    intro t' c h1 h2 _
    refine ⟨h1, ?_⟩
    have e : t' ≠ t := fun e => hi (e ▸ h2)
    show (upd s.th t p t').pc = .idle
    rw [upd_ne _ _ e]; exact h2
  · show ThOk hb _ t (upd s.th t p t)
    rw [upd_same]
    exact ht.frame (fr t)

theorem ThOk.get {hb : Nat × Nat → Nat} {s : St} {t : Nat} {p : Th} (h : ThOk hb s t p)
    {pc : Pc} (hp : p.pc = pc) (hi : pc ≠ .idle) : Base s t p ∧ PcOk hb s t p pc := by
  rcases h with h | h
  · exact absurd (hp.symm.trans h) hi
  · rw [hp] at h; exact h

/-- Base facts do not depend on the position. -/
theorem Base.pc {s : St} {t : Nat} {p : Th} (h : Base s t p) (pc : Pc) :
    Base s t { p with pc := pc } := { h with }

theorem Base.log {s : St} {t : Nat} {p : Th} (h : Base s t p) (pc : Pc) (e : Ev) :
    Base s t { p with pc := pc, log := e :: p.log } :=
  { h with avail := fun l hl ha => (h.avail l hl ha).mono e }

/-- A step that takes or drops the write lock of a line only (by an active thread). -/
theorem glob_writer {s s' : St} {t c : Nat} {w : Option Nat} (h : Glob s)
    (hi : (s.th t).pc ≠ .idle) (hw : s.writer c = none ∨ s.writer c = some t)
    (hr : w ≠ none → s.readers c = 0)
    (e1 : s'.writer = upd s.writer c w) (e2 : s'.readers = s.readers) (e3 : s'.dirty = s.dirty)
    (e4 : s'.seq = s.seq) (e5 : s'.bug = s.bug) (e6 : ∀ t', t' ≠ t → s'.th t' = s.th t') :
    Glob s' := by
  refine glob_same h e4 e3 e2 (e5.trans h.bug) ?_ ?_
  · intro x hx
    rw [e1] at hx
    by_cases e : x = c
    · rw [e, upd_same] at hx; rw [e]; exact hr hx
    · rw [upd_ne _ _ e] at hx; exact h.excl x hx
  · intro t' x h1 h2 _
    have ht : t' ≠ t := fun e => hi (e ▸ h2)
    have hx : x ≠ c := by
      intro e
      rw [e] at h1
      rcases hw with h3 | h3
      · rw [h3] at h1; exact absurd h1 (by simp)
      · rw [h3] at h1; exact ht (Option.some.inj h1).symm
    rw [e1, upd_ne _ _ hx, e6 t' ht]
    exact ⟨h1, h2⟩

theorem frame_writer {s s' : St} {t t' c : Nat} {w : Option Nat} (ht : t' ≠ t)
    (hw : s.writer c = none ∨ s.writer c = some t) (hw' : w = none ∨ w = some t)
    (e1 : s'.writer = upd s.writer c w) (e2 : s'.dirty = s.dirty)
    (e3 : s'.core = s.core) (e4 : s'.seq = s.seq) (e5 : s'.lruLock = s.lruLock)
    (e6 : s'.hash = s.hash) : Frame s s' t' := by
  refine ⟨?_, by simp [e2], by simp [e3], by simp [e4], by simp [e5], by simp [e6]⟩
  intro x
  rw [e1]
  by_cases e : x = c
  · rw [e, upd_same]
    have n1 : w ≠ some t' := by
      rcases hw' with h | h <;> rw [h] <;> simp [Ne.symm ht]
    have n2 : s.writer c ≠ some t' := by
      rcases hw with h | h <;> rw [h] <;> simp [Ne.symm ht]
    exact ⟨fun h => absurd h n1, fun h => absurd h n2⟩
  · rw [upd_ne _ _ e]

theorem frame_hash {s s' : St} {t t' b : Nat} {w : Option Nat} (ht : t' ≠ t)
    (hw : s.hash b = none ∨ s.hash b = some t) (hw' : w = none ∨ w = some t)
    (e1 : s'.hash = upd s.hash b w) (e2 : s'.dirty = s.dirty)
    (e3 : s'.core = s.core) (e4 : s'.seq = s.seq) (e5 : s'.lruLock = s.lruLock)
    (e6 : s'.writer = s.writer) : Frame s s' t' := by
  refine ⟨by simp [e6], by simp [e2], by simp [e3], by simp [e4], by simp [e5], ?_⟩
  intro x
  rw [e1]
  by_cases e : x = b
  · rw [e, upd_same]
    have n1 : w ≠ some t' := by
      rcases hw' with h | h <;> rw [h] <;> simp [Ne.symm ht]
    have n2 : s.hash b ≠ some t' := by
      rcases hw with h | h <;> rw [h] <;> simp [Ne.symm ht]
    exact ⟨fun h => absurd h n1, fun h => absurd h n2⟩
  · rw [upd_ne _ _ e]

theorem glob_th {s s' : St} {t : Nat} (h : Glob s) (hi : (s.th t).pc ≠ .idle)
    (e1 : s'.writer = s.writer) (e2 : s'.readers = s.readers) (e3 : s'.dirty = s.dirty)
    (e4 : s'.seq = s.seq) (e5 : s'.bug = false) (e6 : ∀ t', t' ≠ t → s'.th t' = s.th t') :
    Glob s' := by
  refine glob_same h e4 e3 e2 e5 (by rw [e1]; exact h.excl) ?_
  intro t' x h1 h2 _
  have ht : t' ≠ t := fun e => hi (e ▸ h2)
  rw [e1, e6 t' ht]
  exact ⟨h1, h2⟩

theorem misses_drop_set {map : List Slot} {i : Nat} (h : map[i]? = some .miss) (c : Nat) :
    misses (map.drop i) = misses ((map.set i (.remapped c)).drop (i + 1)) + 1 ∧
    misses map = misses (map.set i (.remapped c)) + 1 := by
  have hi : i < map.length := (List.getElem?_eq_some_iff.1 h).1
  have he : map[i] = .miss := (List.getElem?_eq_some_iff.1 h).2
  unfold misses
  constructor
  · rw [List.drop_eq_getElem_cons hi, he, List.countP_cons,
      List.drop_set_of_lt (by omega)]
    rfl
  · have := Verif.countP_set (fun x : Slot => x == .miss) map i (.remapped c) .miss h
    simp only [beq_self_eq_true, if_true] at this
    have e : ((Slot.remapped c == Slot.miss) = true) = False := by
      rw [show (Slot.remapped c == Slot.miss) = false from rfl]; simp
    simp only [e, if_false] at this
    omega

theorem advance_spec (map : List Slot) (i : Nat) (h : 0 < misses (map.drop i)) :
    map[advance map i]? = some .miss ∧ misses (map.drop (advance map i)) = misses (map.drop i) := by
  fun_induction advance map i with
  | case1 i hc ih =>
    have hi : i < map.length := by omega
    have e : misses (map.drop i) = misses (map.drop (i + 1)) := by
      unfold misses
      rw [List.drop_eq_getElem_cons hi, List.countP_cons]
      have : map[i] ≠ .miss := by
        have := hc.2
        rw [List.getElem?_eq_getElem hi] at this
        simpa using this
      simp [this]
    rw [e] at h ⊢
    exact ih h
  | case2 i hc =>
    refine ⟨?_, rfl⟩
    by_cases hi : i + 1 < map.length
    · by_cases hm : map[i]? = some .miss
      · exact hm
      · exact absurd ⟨hi, hm⟩ hc
    · have hlt : i < map.length := by
        by_cases hlt : i < map.length
        · exact hlt
        · unfold misses at h
          rw [List.drop_eq_nil_of_le (by omega)] at h
          exact absurd h (by simp)
      unfold misses at h
      rw [List.drop_eq_getElem_cons hlt, List.drop_eq_nil_of_le (by omega)] at h
      rw [List.getElem?_eq_getElem hlt]
      by_cases e : map[i] = .miss
      · rw [e]
      · simp [e] at h

theorem Seen.reject {s : St} {p : Th} {l n c : Nat} (h : Seen s p l (n + 1))
    (hc : (s.seq (p.req.list l))[n]? = some c) (w : Why) (pc : Pc) :
    Seen s { p with pc := pc, log := .reject c w :: p.log } l n := by
  refine ⟨.tail _ h.visit, fun i x hi hx => ?_⟩
  by_cases e : i = n
  · subst e
    have hx : (s.seq (p.req.list l))[i]? = some x := hx
    rw [hc] at hx
    rw [← Option.some.inj hx]; exact ⟨w, .head _⟩
  · exact (h.rej i x (by omega) hx).imp fun _ h => .tail _ h

theorem num_pos {it : It} (h : ItOk it) (he : it.isEmpty = false) : 0 < it.num := by
  rw [h.num, List.countP_pos_iff]
  exact ⟨it.idx, List.mem_range.2 h.idx, by rw [avail_cur it h.idx, he]; rfl⟩

theorem none_avail {it : It} (h : ItOk it) (he : it.num = 0) (l : Nat) (hl : l < W) :
    it.avail l = false := by
  rw [h.num, List.countP_eq_zero] at he
  simpa using he l (List.mem_range.2 hl)

theorem frame_seq {s s' : St} {t' c : Nat} {a b : Key} (hl : ¬ s.lruLock a.idx = some t')
    (hi : b.idx = a.idx) (e1 : s'.seq = shift s.seq c a b) (e2 : s'.dirty = s.dirty)
    (e3 : s'.core = s.core) (e4 : s'.writer = s.writer) (e5 : s'.lruLock = s.lruLock)
    (e6 : s'.hash = s.hash) : Frame s s' t' := by
  refine ⟨by simp [e4], by simp [e2], by simp [e3], ?_, by simp [e5], by simp [e6]⟩
  intro k hk
  rw [e1]
  exact shift_other (fun e => hl (e ▸ hk)) (fun e => hl (by rw [← hi, ← e]; exact hk))

theorem inv_init {hb : Nat × Nat → Nat} {s : St} (h : Init s) : Inv hb s := by
  refine ⟨⟨h.nodup, h.once, h.idx, fun c _ => h.readers c, ?_, h.bug⟩, fun t => .inl (h.idle t)⟩
  intro k c hc hk hd
  rw [h.clean k c hc hk] at hd
  exact absurd hd (by simp)

/-- Dropping the bucket of the line at hand unless it is one of the request's own. -/
theorem drop_bucket {hb : Nat × Nat → Nat} {s s' : St} {t c : Nat} {p p' : Th}
    (h : Buckets hb s t p (some c)) (hr : p'.req = p.req)
    (e : s'.hash = if p.req.own (hb (s.core c)) then s.hash else upd s.hash (hb (s.core c)) none) :
    Buckets hb s' t p' none := by
  intro b
  rw [e, hr]
  have hb' := h b
  by_cases ho : p.req.own (hb (s.core c)) = true
  · rw [if_pos ho, hb']
    constructor
    · rintro (h1 | ⟨x, hx, h1⟩)
      · exact .inl h1
      · rw [← Option.some.inj hx, ] at h1
        exact .inl (h1 ▸ ho)
    · rintro (h1 | ⟨x, hx, _⟩)
      · exact .inl h1
      · exact absurd hx (by simp)
  · rw [if_neg ho]
    by_cases hx : b = hb (s.core c)
    · rw [hx, upd_same]
      simp [ho]
    · rw [upd_ne _ _ hx, hb']
      constructor
      · rintro (h1 | ⟨x, hx', h1⟩)
        · exact .inl h1
        · rw [← Option.some.inj hx'] at h1; exact absurd h1.symm hx
      · rintro (h1 | ⟨x, hx, _⟩)
        · exact .inl h1
        · exact absurd hx (by simp)

theorem frame_drop {hb : Nat × Nat → Nat} {s s' : St} {t t' c : Nat} {p : Th}
    (h : Buckets hb s t p (some c)) (ht : t' ≠ t)
    (e1 : s'.hash = if p.req.own (hb (s.core c)) then s.hash else upd s.hash (hb (s.core c)) none)
    (e2 : s'.dirty = s.dirty) (e3 : s'.core = s.core) (e4 : s'.seq = s.seq)
    (e5 : s'.lruLock = s.lruLock) (e6 : s'.writer = s.writer) : Frame s s' t' := by
  by_cases ho : p.req.own (hb (s.core c)) = true
  · rw [if_pos ho] at e1
    exact ⟨by simp [e6], by simp [e2], by simp [e3], by simp [e4], by simp [e5], by simp [e1]⟩
  · rw [if_neg ho] at e1
    have h1 : s.hash (hb (s.core c)) = some t := (h _).2 (.inr ⟨c, rfl, rfl⟩)
    exact frame_hash ht (.inr h1) (.inl rfl) e1 e2 e3 e4 e5 e6

theorem inv_step {hb : Nat × Nat → Nat} {s s' : St} (h : Inv hb s) (st : Step hb s s') :
    Inv hb s' := by
  have G := h.glob
  cases st with
  | call t r map hi hh hd hw hm hmap hmid =>
    have fr : ∀ t', Frame s { s with th := upd s.th t (Th.start s t r map) } t' := fun t' =>
      ⟨fun _ => Iff.rfl, fun _ _ => rfl, fun _ _ => rfl, fun _ _ => rfl, fun _ h => h,
        fun _ => Iff.rfl⟩
    refine inv_own (t := t) h ?_ (fun t' e => upd_ne _ _ e) (fun t' _ => fr t') ?_
    · refine glob_same G rfl rfl rfl G.bug G.excl ?_
      rintro t' c h1 h2 ⟨hd', k, hk, hck⟩
      refine ⟨h1, ?_⟩
      have e : t' ≠ t := fun e => hmid k c (e ▸ h1) hd' hk hck
      show (upd s.th t _ t').pc = .idle
      rw [upd_ne _ _ e]; exact h2
    · show ThOk hb _ t (upd s.th t _ t)
      rw [upd_same]
      refine .inr ⟨⟨ok_init _, ?_, hd, Nat.zero_le _, ?_, ?_, rfl, fun i => .inl rfl⟩, ?_, ?_, ?_⟩
      · intro l _ ha
        have : (It.init r.start).avail l = false := ha
        rw [init_avail] at this; exact absurd this (by simp)
      · exact hm
      · exact fun i c hi => (hmap i c hi).2
      · intro c
        show s.writer c = some t ↔ decide (s.writer c = some t) = true ∨ .remapped c ∈ map ∨ _
        simp only [decide_eq_true_eq, reduceCtorEq, or_false]
        constructor
        · exact .inl
        · rintro (e | e)
          · exact e
          · obtain ⟨i, hi⟩ := List.getElem?_of_mem e
            exact (hmap i c hi).1
      · intro b
        rw [show s.hash b = some t ↔ _ from hh b]
        simp [Th.start]
      · show 0 < W; decide
  | enough t hp hg =>
    obtain ⟨b, h1, h2, h3⟩ := (h.th t).get hp (by simp)
    exact inv_local h (by rw [hp]; simp) (.inr ⟨b.pc _, h1, h2, .inl hg⟩)
  | pick t hp hg hl =>
    obtain ⟨b, h1, h2, h3⟩ := (h.th t).get hp (by simp)
    refine inv_own (t := t) h ?_ (fun t' e => upd_ne _ _ e) (fun t' e => ?_) ?_
    · exact glob_th (t := t) G (by rw [hp]; simp) rfl rfl rfl rfl G.bug (fun t' e => upd_ne _ _ e)
    · refine ⟨fun _ => Iff.rfl, fun _ _ => rfl, fun _ _ => rfl, fun _ _ => rfl, ?_, fun _ => Iff.rfl⟩
      intro l hl'
      show upd s.lruLock _ _ l = _
      by_cases e' : l = (s.th t).it.next.idx
      · rw [e', hl] at hl'; exact absurd hl' (by simp)
      · rw [upd_ne _ _ e']; exact hl'
    · show ThOk hb _ t (upd s.th t _ t)
      rw [upd_same]
      refine .inr ⟨?_, h1, h2, ⟨upd_same _ _ _, rfl, next_avail b.it h3⟩, ⟨.head _, ?_⟩, hg⟩
      · refine { b with it := ok_next b.it, avail := ?_ }
        intro l hl' ha
        rw [avail_next b.it l hl'] at ha
        exact (b.avail l hl' ha).mono _
      · intro i c hi hc
        have hi : (s.seq ((s.th t).req.list (s.th t).it.next.idx)).length ≤ i := hi
        have hc : (s.seq ((s.th t).req.list (s.th t).it.next.idx))[i]? = some c := hc
        rw [List.getElem?_eq_none hi] at hc
        exact absurd hc (by simp)
  | lock t l n c hp hc hw hr =>
    obtain ⟨b, h1, h2, h3, h4, h5⟩ := (h.th t).get hp (by simp)
    have hcm : c ∈ s.seq ((s.th t).req.list l) := List.mem_of_getElem? hc
    have hcl : s.dirty c = false := by
      cases hd : s.dirty c with
      | false => rfl
      | true =>
        obtain ⟨t', e, _⟩ := G.clean _ c hcm rfl hd
        rw [hw] at e; exact absurd e (by simp)
    have hn : ¬ ((s.th t).had c = true ∨ .remapped c ∈ (s.th t).map ∨ (none : Option Nat) = some c) :=
      fun e => by have := (h1 c).2 e; rw [hw] at this; exact absurd this (by simp)
    refine inv_own (t := t) h ?_ (fun t' e => upd_ne _ _ e) (fun t' e => ?_) ?_
    · exact glob_writer (t := t) G (by rw [hp]; simp) (.inl hw) (fun _ => hr) rfl rfl rfl rfl rfl
        (fun t' e => upd_ne _ _ e)
    · exact frame_writer e (.inl hw) (.inr rfl) rfl rfl rfl rfl rfl rfl
    · show ThOk hb _ t (upd s.th t _ t)
      rw [upd_same]
      refine .inr ⟨{ b with }, ?_⟩
      have hheld : ∀ pc, Held { s with writer := upd s.writer c (some t) } t
          { s.th t with pc := pc } (some c) := by
        intro pc x
        show upd s.writer c (some t) x = some t ↔ _
        by_cases e : x = c
        · rw [e, upd_same]; simp
        · rw [upd_ne _ _ e, h1 x]
          simp [Ne.symm e]
      have hcur : ∀ pc, Cur { s with writer := upd s.writer c (some t) } t
          { s.th t with pc := pc } c := fun pc =>
        ⟨upd_same _ _ _, by simpa using fun e => hn (.inl e), fun e => hn (.inr (.inl e)), hcl⟩
      by_cases hs : (s.th t).req.src = freeId
      · simp only [if_pos hs]
        refine ⟨⟨hheld .idle, ?_, { hcur .idle with }, fun e => absurd hs e, num_pos b.it h3.some⟩, ⟨h3.lock, h3.idx, h3.some⟩, hcm, h5⟩
        simp only [Th.bucket, if_pos hs]
        exact h2
      · simp only [if_neg hs]
        exact ⟨hheld .idle, h2, { hcur .idle with }, ⟨h3.lock, h3.idx, h3.some⟩, ⟨h4.visit, h4.rej⟩, hc, h5, hs⟩
  | lockFail t l n c hp hc hw =>
    obtain ⟨b, h1, h2, h3, h4, h5⟩ := (h.th t).get hp (by simp)
    refine inv_local h (by rw [hp]; simp) (.inr ⟨b.log _ _, h1, h2, ⟨h3.lock, h3.idx, h3.some⟩, h4.reject hc _ _, h5⟩)
  | scanEnd t l hp =>
    obtain ⟨b, h1, h2, h3, h4, h5⟩ := (h.th t).get hp (by simp)
    refine inv_local h (by rw [hp]; simp) (.inr ⟨b.pc _, h1, h2, ⟨h3.lock, h3.idx, h3.some⟩, ⟨_, h4.visit, ?_⟩, h5⟩)
    intro c hc
    obtain ⟨i, hi⟩ := List.getElem?_of_mem hc
    exact h4.rej i c (Nat.zero_le _) hi
  | own t l n c hp hr =>
    obtain ⟨b, h1, h2, hu, h3, h4, h5, h6, h7⟩ := (h.th t).get hp (by simp)
    exact inv_local h (by rw [hp]; simp)
      (.inr ⟨b.log _ _, h1, h2, { hu with }, { h3 with }, h4.reject h5 _ _, h6⟩)
  | notOwn t l n c hp hr =>
    obtain ⟨b, h1, h2, hu, h3, h4, h5, h6, h7⟩ := (h.th t).get hp (by simp)
    exact inv_local h (by rw [hp]; simp) (.inr ⟨b.pc _, h1, h2, { hu with }, { h3 with }, { h4 with }, h5, h6, h7, hr⟩)
  | hashOwn t l n c hp hr =>
    obtain ⟨b, h1, h2, hu, h3, h4, h5, h6, h7, h8⟩ := (h.th t).get hp (by simp)
    refine inv_local h (by rw [hp]; simp) (.inr ⟨b.pc _, h1, ?_, { hu with }, { h3 with }, { h4 with }, h5, h6, h7, h8⟩)
    intro x
    rw [h2 x]
    constructor
    · rintro (e | ⟨y, e, _⟩)
      · exact .inl e
      · exact absurd e (by simp)
    · rintro (e | ⟨y, e, e'⟩)
      · exact .inl e
      · rw [← Option.some.inj e] at e'; exact .inl (e' ▸ hr)
  | hashLock t l n c hp hr hh =>
    obtain ⟨b, h1, h2, hu, h3, h4, h5, h6, h7, h8⟩ := (h.th t).get hp (by simp)
    refine inv_own (t := t) h ?_ (fun t' e => upd_ne _ _ e) (fun t' e => ?_) ?_
    · exact glob_th (t := t) G (by rw [hp]; simp) rfl rfl rfl rfl G.bug (fun t' e => upd_ne _ _ e)
    · exact frame_hash e (.inl hh) (.inr rfl) rfl rfl rfl rfl rfl rfl
    · show ThOk hb _ t (upd s.th t _ t)
      rw [upd_same]
      refine .inr ⟨{ b with }, h1, ?_, { hu with }, { h3 with }, { h4 with }, h5, h6, h7, h8⟩
      intro x
      show upd s.hash (hb (s.core c)) (some t) x = some t ↔ _
      by_cases e : x = hb (s.core c)
      · rw [e, upd_same]
        simp only [true_iff]
        exact .inr ⟨c, rfl, rfl⟩
      · rw [upd_ne _ _ e, h2 x]
        constructor
        · rintro (e | ⟨y, e, _⟩)
          · exact .inl e
          · exact absurd e (by simp)
        · rintro (e' | ⟨y, e1, e'⟩)
          · exact .inl e'
          · rw [← Option.some.inj e1] at e'; exact absurd e'.symm e
  | hashFail t l n c hp hr hh =>
    obtain ⟨b, h1, h2, hu, h3, h4, h5, h6, h7, h8⟩ := (h.th t).get hp (by simp)
    exact inv_local h (by rw [hp]; simp)
      (.inr ⟨b.log _ _, h1, h2, { hu with }, { h3 with }, h4.reject h5 _ _, h6⟩)
  | waited t l n c hp hw =>
    obtain ⟨b, h1, h2, hu, h3, h4, h5, h6, h7, h8⟩ := (h.th t).get hp (by simp)
    exact inv_local h (by rw [hp]; simp)
      (.inr ⟨b.log _ _, h1, h2, { hu with }, { h3 with }, h4.reject h5 _ _, h6⟩)
  | free t l n c hp hw =>
    obtain ⟨b, h1, h2, hu, h3, h4, h5, h6, h7, h8⟩ := (h.th t).get hp (by simp)
    refine inv_local h (by rw [hp]; simp) (.inr ⟨b.pc _, ⟨h1, ?_, { hu with }, fun _ => h8, num_pos b.it h3.some⟩, { h3 with },
      List.mem_of_getElem? h5, h6⟩)
    simp only [Th.bucket, if_neg h7]
    exact h2
  | unhash t l n c hp =>
    obtain ⟨b, h1, h2, hu, h3, h4, h5⟩ := (h.th t).get hp (by simp)
    refine inv_own (t := t) h ?_ (fun t' e => upd_ne _ _ e) (fun t' e => ?_) ?_
    · exact glob_th (t := t) G (by rw [hp]; simp) rfl rfl rfl rfl G.bug (fun t' e => upd_ne _ _ e)
    · exact frame_drop h2 e rfl rfl rfl rfl rfl rfl
    · show ThOk hb _ t (upd s.th t _ t)
      rw [upd_same]
      exact .inr ⟨{ b with }, h1, drop_bucket h2 rfl rfl, { hu with }, { h3 with }, { h4 with }, h5⟩
  | unline t l n c hp =>
    obtain ⟨b, h1, h2, hu, h3, h4, h5⟩ := (h.th t).get hp (by simp)
    refine inv_own (t := t) h ?_ (fun t' e => upd_ne _ _ e) (fun t' e => ?_) ?_
    · exact glob_writer (t := t) G (by rw [hp]; simp) (.inr hu.wr) (fun e => absurd rfl e) rfl rfl rfl
        rfl rfl (fun t' e => upd_ne _ _ e)
    · exact frame_writer e (.inr hu.wr) (.inl rfl) rfl rfl rfl rfl rfl rfl
    · show ThOk hb _ t (upd s.th t _ t)
      rw [upd_same]
      refine .inr ⟨{ b with }, ?_, h2, { h3 with }, { h4 with }, h5⟩
      · intro x
        show upd s.writer c none x = some t ↔ _
        by_cases e : x = c
        · rw [e, upd_same]
          have := hu.had
          have := hu.fresh
          simp [*]
        · rw [upd_ne _ _ e, h1 x]
          simp [Ne.symm e]
  | take t l c hp =>
    obtain ⟨b, h1, h2, h3, h4⟩ := (h.th t).get hp (by simp)
    have hsrc : (if (s.th t).req.dst ≠ (s.th t).req.src then getKey (s.th t).req.src l (!s.dirty c)
        else (s.th t).req.list l) = (s.th t).req.list l := by
      rw [h1.cur.clean]; simp [Req.list]
    have hid : ∀ k, k = (if (s.th t).req.dst ≠ (s.th t).req.src then
        getKey (s.th t).req.dst l (!s.dirty c) else (s.th t).req.list l) → k.idx = l := by
      intro k hk
      rw [hk]; split <;> rfl
    generalize hdk : (if (s.th t).req.dst ≠ (s.th t).req.src then
        getKey (s.th t).req.dst l (!s.dirty c) else (s.th t).req.list l) = dk
    have hid := hid dk hdk.symm
    rw [hsrc]
    refine inv_own (t := t) h ?_ (fun t' e => upd_ne _ _ e) (fun t' e => ?_) ?_
    · refine glob_shift (b := dk) G h3 hid rfl rfl rfl rfl ?_ ?_ ?_
      · show (s.bug || decide (c ∉ s.seq ((s.th t).req.list l))) = s.bug
        simp [h3]
      · intro t' ht'
        have e : t' ≠ t := fun e => by rw [e, hp] at ht'; exact absurd ht' (by simp)
        show (upd s.th t _ t').pc = .idle
        rw [upd_ne _ _ e]; exact ht'
      · intro _ hd; rw [h1.cur.clean] at hd; exact absurd hd (by simp)
    · refine frame_seq (b := dk) ?_ hid rfl rfl rfl rfl rfl rfl
      rw [list_idx, h2.lock]
      exact fun x => e (Option.some.inj x).symm
    · show ThOk hb _ t (upd s.th t _ t)
      rw [upd_same]
      exact .inr ⟨{ b with }, { h1 with cur := { h1.cur with } }, { h2 with }, h4⟩
  | release t l r hp =>
    have hi : (s.th t).pc ≠ .idle := by rw [hp]; simp
    have hlock : s.lruLock l = some t := by
      cases r with
      | none => exact ((h.th t).get hp (by simp)).2.2.2.1.lock
      | some c => exact ((h.th t).get hp (by simp)).2.2.1.lock
    refine inv_own (t := t) h ?_ (fun t' e => upd_ne _ _ e) (fun t' e => ?_) ?_
    · exact glob_th (t := t) G hi rfl rfl rfl rfl G.bug (fun t' e => upd_ne _ _ e)
    · refine ⟨fun _ => Iff.rfl, fun _ _ => rfl, fun _ _ => rfl, fun _ _ => rfl, ?_, fun _ => Iff.rfl⟩
      intro x hx
      show upd s.lruLock l none x = _
      have : x ≠ l := fun e' => by
        rw [e', hlock] at hx; exact e (Option.some.inj hx).symm
      rw [upd_ne _ _ this]; exact hx
    · show ThOk hb _ t (upd s.th t _ t)
      rw [upd_same]
      cases r with
      | none =>
        obtain ⟨b, h1, h2, h3, h4, h5⟩ := (h.th t).get hp (by simp)
        exact .inr ⟨{ b with }, h1, h2, h3.idx, h3.some, h4, h5⟩
      | some c =>
        obtain ⟨b, h1, h2, h3⟩ := (h.th t).get hp (by simp)
        exact .inr ⟨{ b with }, { h1 with cur := { h1.cur with } }, h3⟩
  | markEmpty t l hp =>
    obtain ⟨b, h1, h2, h3, h4, h5, h6⟩ := (h.th t).get hp (by simp)
    refine inv_local h (by rw [hp]; simp) (.inr ?_)
    have hit : (afterEmpty (s.th t).it).1 = (s.th t).it.setEmpty := by simp [afterEmpty, h4]
    have hok := ok_setEmpty b.it h4
    have hav : ∀ l, l < W → (s.th t).it.setEmpty.avail l = false → Tried (s.th t).log l := by
      intro x hx ha
      rw [avail_setEmpty b.it.idx x hx] at ha
      by_cases e : x = l
      · rw [e]; exact h5
      · refine b.avail x hx ?_
        rw [← h3] at ha
        simpa [e] using ha
    have hb' : Base s t { s.th t with it := (afterEmpty (s.th t).it).1, pc := (afterEmpty (s.th t).it).2 } := by
      rw [hit]
      exact { b with it := hok, avail := hav }
    refine ⟨hb', ?_⟩
    by_cases hz : (s.th t).it.setEmpty.num = 0
    · have hpc : (afterEmpty (s.th t).it).2 = .done := by simp [afterEmpty, h4, It.allEmpty, hz]
      simp only [hpc]
      exact ⟨h1, h2, .inr fun l hl => hav l hl (none_avail hok hz l hl)⟩
    · have hpc : (afterEmpty (s.th t).it).2 = .pick := by simp [afterEmpty, h4, It.allEmpty, hz]
      simp only [hpc, hit]
      exact ⟨h1, h2, Nat.pos_of_ne_zero hz⟩
  | markFound t l c hp =>
    obtain ⟨b, h1, h2⟩ := (h.th t).get hp (by simp)
    exact inv_local h (by rw [hp]; simp) (.inr ⟨b.pc _, { h1 with cur := { h1.cur with } }, h2⟩)
  | check t c hp =>
    obtain ⟨b, h1, h2⟩ := (h.th t).get hp (by simp)
    have hs := b.slots
    have ha := advance_spec (s.th t).map (s.th t).reqIdx (by omega)
    refine inv_own (t := t) h ?_ (fun t' e => upd_ne _ _ e) (fun t' e => ?_) ?_
    · refine glob_th (t := t) G (by rw [hp]; simp) rfl rfl rfl rfl ?_ (fun t' e => upd_ne _ _ e)
      show (s.bug || s.dirty c || _) = false
      rw [G.bug, h1.cur.clean, ha.1]; simp
    · exact ⟨fun _ => Iff.rfl, fun _ _ => rfl, fun _ _ => rfl, fun _ _ => rfl, fun _ h => h, fun _ => Iff.rfl⟩
    · show ThOk hb _ t (upd s.th t _ t)
      rw [upd_same]
      refine .inr ⟨{ b with slots := by show _ ≤ misses (List.drop (advance _ _) _); rw [ha.2]; exact hs }, ?_⟩
      by_cases hf : (s.th t).req.src = freeId
      · simp only [if_pos hf]
        refine ⟨h1.held, ?_, { h1.cur with }, h2, ha.1, h1.num⟩
        have := h1.hash
        simp only [Th.bucket, if_pos hf] at this
        exact this
      · simp only [if_neg hf]
        exact ⟨{ h1 with cur := { h1.cur with } }, h2, ha.1, hf⟩
  | inval t c hp =>
    obtain ⟨b, h1, h2, h3, h4⟩ := (h.th t).get hp (by simp)
    have hbk := h1.hash
    simp only [Th.bucket, if_neg h4] at hbk
    refine inv_own (t := t) h ?_ (fun t' e => upd_ne _ _ e) (fun t' e => ?_) ?_
    · exact glob_th (t := t) G (by rw [hp]; simp) rfl rfl rfl rfl G.bug (fun t' e => upd_ne _ _ e)
    · exact frame_drop hbk e rfl rfl rfl rfl rfl rfl
    · show ThOk hb _ t (upd s.th t _ t)
      rw [upd_same]
      exact .inr ⟨{ b with }, h1.held, drop_bucket hbk rfl rfl, { h1.cur with }, h2, h3, h1.num⟩
  | assign t c hp =>
    obtain ⟨b, h1, h2, hu, h3, h4, h5⟩ := (h.th t).get hp (by simp)
    have hms := misses_drop_set h4 c
    have hlt : (s.th t).reqIdx < (s.th t).map.length := (List.getElem?_eq_some_iff.1 h4).1
    have hs := b.slots
    have hslots : (s.th t).req.want - ((s.th t).got + 1) ≤
        misses (((s.th t).map.set (s.th t).reqIdx (.remapped c)).drop ((s.th t).reqIdx + 1)) := by
      omega
    refine inv_own (t := t) h ?_ (fun t' e => upd_ne _ _ e) (fun t' e => ?_) ?_
    · refine glob_th (t := t) G (by rw [hp]; simp) rfl rfl rfl rfl ?_ (fun t' e => upd_ne _ _ e)
      show (s.bug || _) = false
      rw [G.bug, Bool.false_or]
      simp only [decide_eq_false_iff_not, not_and, Decidable.not_not]
      intro e
      rw [List.drop_eq_nil_of_le (by simp; omega)] at hslots
      have : misses [] = 0 := rfl
      omega
    · refine ⟨fun _ => Iff.rfl, fun _ _ => rfl, ?_, fun _ _ => rfl, fun _ h => h, fun _ => Iff.rfl⟩
      intro x hx
      have : x ≠ c := fun e' => by
        rw [e', hu.wr] at hx; exact e (Option.some.inj hx).symm
      simp [this]
    · show ThOk hb _ t (upd s.th t _ t)
      rw [upd_same]
      refine .inr ⟨?_, ?_, ?_, h5⟩
      · refine { b with got := h3, slots := hslots, core := ?_, count := ?_, map := ?_ }
        · intro i x hx
          rw [List.getElem?_set] at hx
          by_cases e : (s.th t).reqIdx = i
          · rw [if_pos e] at hx
            by_cases hl : i < (s.th t).map.length
            · rw [if_pos (e ▸ hl)] at hx
              have : c = x := by simpa using hx
              subst this
              simp [e]
            · rw [if_neg (fun h => hl (e ▸ h))] at hx; exact absurd hx (by simp)
          · rw [if_neg e] at hx
            have hx' : (s.th t).map[i]? = some (.remapped x) := hx
            have : x ≠ c := fun e' => hu.fresh (e' ▸ List.mem_of_getElem? hx')
            simp only [if_neg this]
            exact b.core i x hx'
        · have := b.count
          show misses ((s.th t).map.set _ _) + ((s.th t).got + 1) = misses (s.th t).map0
          omega
        · intro i
          rw [List.getElem?_set]
          by_cases e : (s.th t).reqIdx = i
          · right
            subst e
            refine ⟨?_, c, by simp [hlt]⟩
            rcases b.map (s.th t).reqIdx with h | ⟨h, _⟩
            · exact h ▸ h4
            · exact h
          · rw [if_neg e]; exact b.map i
      · intro x
        show s.writer x = some t ↔ _
        rw [h1 x]
        have hmem : Slot.remapped x ∈ (s.th t).map.set (s.th t).reqIdx (.remapped c) ↔
            Slot.remapped x ∈ (s.th t).map ∨ x = c := by
          constructor
          · intro hm
            rcases List.mem_or_eq_of_mem_set hm with hm | hm
            · exact .inl hm
            · exact .inr (by simpa using hm)
          · rintro (hm | rfl)
            · obtain ⟨i, hi⟩ := List.getElem?_of_mem hm
              refine List.mem_of_getElem? (i := i) ?_
              rw [List.getElem?_set]
              have : (s.th t).reqIdx ≠ i := fun e => by
                rw [← e, h4] at hi; exact absurd hi (by simp)
              rw [if_neg this]; exact hi
            · refine List.mem_of_getElem? (i := (s.th t).reqIdx) ?_
              simp [hlt]
        rw [hmem]
        simp only [Option.some.injEq, reduceCtorEq, or_false]
        constructor
        · rintro (e | e | e)
          · exact .inl e
          · exact .inr (.inl e)
          · exact .inr (.inr e.symm)
        · rintro (e | e | e)
          · exact .inl e
          · exact .inr (.inl e)
          · exact .inr (.inr e.symm)
      · intro x
        rw [h2 x]
        simp
  | ret t hp =>
    exact inv_local h (by rw [hp]; simp) (.inl rfl)
  | envLockWr t c hi hw hr =>
    refine inv_env h ?_ rfl (fun t' e => ?_)
    · refine glob_same G rfl rfl rfl G.bug ?_ ?_
      · intro x hx
        by_cases e : x = c
        · rw [e]; exact hr
        · have : upd s.writer c (some t) x ≠ none := hx
          rw [upd_ne _ _ e] at this; exact G.excl x this
      · intro t' x h1 h2 _
        have : x ≠ c := fun e => by rw [e, hw] at h1; exact absurd h1 (by simp)
        exact ⟨(upd_ne _ _ this).trans h1, h2⟩
    · exact frame_writer (t := t) (fun e' => e (e' ▸ hi)) (.inl hw) (.inr rfl) rfl rfl rfl rfl rfl rfl
  | envUnlockWr t c hi hw hd =>
    refine inv_env h ?_ rfl (fun t' e => ?_)
    · refine glob_same G rfl rfl rfl G.bug ?_ ?_
      · intro x hx
        have hx : upd s.writer c none x ≠ none := hx
        by_cases e : x = c
        · rw [e, upd_same] at hx; exact absurd rfl hx
        · rw [upd_ne _ _ e] at hx; exact G.excl x hx
      · rintro t' x h1 h2 ⟨h3, k, h4, h5⟩
        have : x ≠ c := fun e => hd (e ▸ h3) k h4 (e ▸ h5)
        exact ⟨(upd_ne _ _ this).trans h1, h2⟩
    · exact frame_writer (t := t) (fun e' => e (e' ▸ hi)) (.inr hw) (.inl rfl) rfl rfl rfl rfl rfl rfl
  | envLockRd c hw =>
    refine inv_env h ⟨G.nodup, G.once, G.idx, ?_, G.clean, G.bug⟩ rfl (fun t' e =>
      ⟨fun _ => Iff.rfl, fun _ _ => rfl, fun _ _ => rfl, fun _ _ => rfl, fun _ h => h, fun _ => Iff.rfl⟩)
    intro x hx
    have : x ≠ c := fun e => hx (e ▸ hw)
    exact (upd_ne _ _ this).trans (G.excl x hx)
  | envUnlockRd c hr =>
    refine inv_env h ⟨G.nodup, G.once, G.idx, ?_, G.clean, G.bug⟩ rfl (fun t' e =>
      ⟨fun _ => Iff.rfl, fun _ _ => rfl, fun _ _ => rfl, fun _ _ => rfl, fun _ h => h, fun _ => Iff.rfl⟩)
    intro x hx
    have : x ≠ c := fun e => by
      have := G.excl x hx
      rw [e] at this; omega
    exact (upd_ne _ _ this).trans (G.excl x hx)
  | envWait c b =>
    exact inv_env h ⟨G.nodup, G.once, G.idx, G.excl, G.clean, G.bug⟩ rfl (fun t' e =>
      ⟨fun _ => Iff.rfl, fun _ _ => rfl, fun _ _ => rfl, fun _ _ => rfl, fun _ h => h, fun _ => Iff.rfl⟩)
  | envDirty t c hi hw =>
    refine inv_env h ⟨G.nodup, G.once, G.idx, G.excl, ?_, G.bug⟩ rfl (fun t' e =>
      ⟨fun _ => Iff.rfl, ?_, fun _ _ => rfl, fun _ _ => rfl, fun _ h => h, fun _ => Iff.rfl⟩)
    · intro k x hx hk hd
      by_cases e : x = c
      · rw [e]; exact ⟨t, hw, hi⟩
      · exact G.clean k x hx hk ((upd_ne _ _ e).symm.trans hd)
    · intro x hx
      have : x ≠ c := fun e' => by
        rw [e', hw] at hx; exact e (Option.some.inj hx ▸ hi)
      exact upd_ne _ _ this
  | envDirtyList t c k hi hw hc hd hk hl =>
    refine inv_env h (glob_shift G hc (b := ⟨k.part, k.idx, false⟩) rfl rfl rfl rfl rfl rfl
      (fun _ h => h) (fun h => absurd h (by simp))) rfl (fun t' e => ?_)
    exact frame_seq (a := k) (b := ⟨k.part, k.idx, false⟩) (by rw [hl]; simp) rfl rfl rfl rfl rfl rfl rfl
  | envClean t c hh =>
    refine inv_env h ⟨G.nodup, G.once, G.idx, G.excl, ?_, G.bug⟩ rfl (fun t' e =>
      ⟨fun _ => Iff.rfl, ?_, fun _ _ => rfl, fun _ _ => rfl, fun _ h => h, fun _ => Iff.rfl⟩)
    · intro k x hx hk hd
      have hd : upd s.dirty c false x = true := hd
      by_cases e : x = c
      · rw [e, upd_same] at hd; exact absurd hd (by simp)
      · rw [upd_ne _ _ e] at hd; exact G.clean k x hx hk hd
    · intro x hx
      have : x ≠ c := by
        intro e'
        rw [e'] at hx
        rcases hh with ⟨h1, h2⟩ | h1
        · rw [h2] at hx; exact e (Option.some.inj hx ▸ h1)
        · have := G.excl c (by rw [hx]; simp); omega
      exact upd_ne _ _ this
  | envCleanList t c k hh hc hd hk hl =>
    refine inv_env h (glob_shift G hc (b := ⟨k.part, k.idx, true⟩) rfl rfl rfl rfl rfl rfl
      (fun _ h => h) (fun _ h => by rw [hd] at h; exact absurd h (by simp))) rfl (fun t' e => ?_)
    exact frame_seq (a := k) (b := ⟨k.part, k.idx, true⟩) (by rw [hl]; simp) rfl rfl rfl rfl rfl rfl rfl
  | envRepart t c p k hh hc hl =>
    refine inv_env h (glob_shift G hc (b := getKey p k.idx (!s.dirty c)) rfl rfl rfl rfl rfl rfl
      (fun _ h => h) ?_) rfl (fun t' e => ?_)
    · intro h1 h2
      rcases hh with ⟨h3, h4⟩ | ⟨_, h3⟩
      · exact ⟨t, h4, h3⟩
      · rw [h2] at h1
        simp [getKey, h3] at h1
    · exact frame_seq (a := k) (b := getKey p k.idx (!s.dirty c)) (by rw [hl]; simp) rfl rfl rfl rfl rfl
        rfl rfl
  | envTouch c k hc hl =>
    refine inv_env h (glob_shift G hc (b := k) rfl rfl rfl rfl rfl rfl
      (fun _ h => h) (fun h1 h2 => G.clean k c hc h1 h2)) rfl (fun t' e => ?_)
    exact frame_seq (a := k) (b := k) (by rw [hl]; simp) rfl rfl rfl rfl rfl rfl rfl
  | envMap t c x hi hw =>
    refine inv_env h ⟨G.nodup, G.once, G.idx, G.excl, G.clean, G.bug⟩ rfl (fun t' e =>
      ⟨fun _ => Iff.rfl, fun _ _ => rfl, ?_, fun _ _ => rfl, fun _ h => h, fun _ => Iff.rfl⟩)
    intro y hy
    have : y ≠ c := fun e' => by
      rw [e', hw] at hy; exact e (Option.some.inj hy ▸ hi)
    simp [this]
  | envHashLock t b hi hn =>
    refine inv_env h ⟨G.nodup, G.once, G.idx, G.excl, G.clean, G.bug⟩ rfl (fun t' e => ?_)
    exact frame_hash (t := t) (fun e' => e (e' ▸ hi)) (.inl hn) (.inr rfl) rfl rfl rfl rfl rfl rfl
  | envHashUnlock t b hi hn =>
    refine inv_env h ⟨G.nodup, G.once, G.idx, G.excl, G.clean, G.bug⟩ rfl (fun t' e => ?_)
    exact frame_hash (t := t) (fun e' => e (e' ▸ hi)) (.inr hn) (.inl rfl) rfl rfl rfl rfl rfl rfl

end Verif.Evict
