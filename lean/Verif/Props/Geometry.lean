import Verif.Lemma.Geometry

/-!
C34. Request geometry: the lines and sectors of a request are exactly the sectors it addresses, the
map information counts what the map says, and the I/O sent to the cache moves every byte of the
request once, to or from the place its line is mapped to.
-/

namespace Verif.Geometry

/-! ### Spec -/

/-- Bytes moved by the I/Os, in order: address on the cache volume and offset in the buffer. -/
def moved (l : List Io) : List (Nat × Nat) :=
  l.flatMap fun x => (List.range x.bytes).map fun k => (x.addr + k, x.off + k)

/-- Index, within the request, of the core line that holds byte `j` of the request. -/
def lineOf (r : Req) (j : Nat) : Nat := (r.addr + j) / r.L - r.addr / r.L

/-- Where byte `j` of the request is kept if line `i` of the request is in cache line `coll i`. -/
def byteAt (r : Req) (coll : Nat → Nat) (j : Nat) : Nat × Nat :=
  (r.base + coll (lineOf r j) * r.L + (r.addr + j) % r.L, r.off + j)

/-- Number of `i < n` with `P i`. -/
def number (n : Nat) (P : Nat → Prop) [DecidablePred P] : Nat :=
  ((List.range n).filter fun i => decide (P i)).length

/-- Lines `i` and `i+1` have neighbouring cache lines. -/
def Adjacent (m : Nat → Entry) (i : Nat) : Prop :=
  (m i).st ≠ .miss ∧ (m (i + 1)).st ≠ .miss ∧ (m (i + 1)).coll = (m i).coll + 1

instance (m : Nat → Entry) (i : Nat) : Decidable (Adjacent m i) := by
  unfold Adjacent; exact inferInstance

/-- The map and counters of a request after lookup of its `n` lines, followed by any number of
calls that give it the cache lines `css`. -/
def mapped (n : Nat) (found : Nat → Entry) (m₀ : Nat → Entry) (css : List (List Nat)) :
    Option ((Nat → Entry) × Info) :=
  css.foldlM (fun s cs => assign n cs 0 s) (lookup found n 0 (m₀, ⟨0, 0, 0, 0⟩))

/-! ### Lines and sectors -/

/-- The sectors a request's lines are told to handle are, in order, exactly the sectors it
addresses: none left out, none twice, none beyond. -/
theorem sectors_exact (r : Req) (hL : 0 < r.L) (h512 : 512 ∣ r.L) (hb : 0 < r.bytes) :
    (List.range r.count).flatMap (fun i =>
      (List.range' (r.startSec i) (r.endSec i - r.startSec i + 1)).map
        fun k => (r.first + i) * r.S + k) =
      List.range' (r.addr / 512) ((r.addr + r.bytes - 1) / 512 + 1 - r.addr / 512) ∧
    (∀ i, i < r.count → r.startSec i ≤ r.endSec i ∧ r.endSec i < r.S) := by
  obtain ⟨_, _, sp3, _⟩ := span hL hb
  obtain ⟨e, _, h2, h3⟩ := sectors_aux hL h512 hb r.count (Nat.le_refl _)
  rw [if_neg (by omega), if_pos rfl] at h3
  rw [h2, h3]
  exact ⟨rfl, fun i hi => let h := line_sectors hL h512 hb hi; ⟨h.2.2.1, h.2.2.2⟩⟩

example : (⟨4096, 0, 3584, 1024, 0⟩ : Req).count = 2 ∧
    (⟨4096, 0, 3584, 1024, 0⟩ : Req).startSec 0 = 7 ∧ (⟨4096, 0, 3584, 1024, 0⟩ : Req).endSec 1 = 0 := by
  decide

/-- Every byte of the request is in one of its lines and every line has a byte. -/
theorem lines_exact (r : Req) (hL : 0 < r.L) (hb : 0 < r.bytes) (i : Nat) :
    i < r.count ↔ ∃ j, j < r.bytes ∧ lineOf r j = i := by
  have hl : r.last = (r.addr + r.bytes - 1) / r.L := by unfold Req.last; rw [if_pos (by omega)]
  have hc : r.count = r.last - r.first + 1 := by unfold Req.count; rw [if_pos (by omega)]
  have hf : r.first = r.addr / r.L := rfl
  have hle : r.first ≤ r.last := by rw [hl, hf]; exact Nat.div_le_div_right (by omega)
  constructor
  · intro hi
    by_cases h0 : i = 0
    · exact ⟨0, hb, by unfold lineOf; rw [h0]; simp⟩
    · have hge : r.addr < (r.first + i) * r.L := by
        rw [hf, ← Nat.div_lt_iff_lt_mul hL]; omega
      have hle2 : (r.first + i) * r.L ≤ r.addr + r.bytes - 1 := by
        rw [← Nat.le_div_iff_mul_le hL, ← hl]; omega
      refine ⟨(r.first + i) * r.L - r.addr, by omega, ?_⟩
      unfold lineOf
      rw [show r.addr + ((r.first + i) * r.L - r.addr) = (r.first + i) * r.L from by omega,
        Nat.mul_div_cancel _ hL, ← hf]
      omega
  · rintro ⟨j, hj, rfl⟩
    unfold lineOf
    have : (r.addr + j) / r.L ≤ (r.addr + r.bytes - 1) / r.L := Nat.div_le_div_right (by omega)
    omega

example : ∃ j, j < 1024 ∧ lineOf ⟨4096, 0, 3584, 1024, 0⟩ j = 1 := ⟨512, by decide, by decide⟩

/-! ### Map information -/

/-- What the counters of a request mean. -/
structure Exact (n : Nat) (m : Nat → Entry) (f : Info) : Prop where
  hit : f.hit = number n fun i => (m i).st = .hit ∧ (m i).valid = true
  invalid : f.invalid = number n fun i => (m i).st = .hit ∧ (m i).valid = false
  insert : f.insert = number n fun i => (m i).st = .remapped
  seq : f.seq = number (n - 1) (Adjacent m)
  unmapped : unmapped n f = number n fun i => (m i).st = .miss

theorem exact_of_good {n : Nat} {m : Nat → Entry} {f : Info} (g : Good n m f) : Exact n m f := by
  have hc : ∀ (k : Nat) (p : Nat → Bool) (P : Nat → Prop) [DecidablePred P],
      (∀ i, p i = true ↔ P i) → (List.range k).countP p = number k P := by
    intro k p P _ h
    unfold number
    rw [← List.countP_eq_length_filter]
    apply List.countP_congr
    intro x _
    rw [h x, decide_eq_true_eq]
  refine ⟨?_, ?_, ?_, ?_, ?_⟩
  · rw [g.hit]; apply hc; intro i; simp
  · rw [g.invalid]; apply hc; intro i; simp
  · rw [g.insert]; apply hc; intro i; simp
  · rw [g.seq]; apply hc; intro i; exact physCont_iff m i
  · rw [(unmapped_eq g).1]
    unfold misses
    rw [Nat.sub_zero, ← List.range_eq_range']
    apply hc; intro i; simp

theorem mapped_good (n : Nat) (found m₀ : Nat → Entry) (hf : ∀ i, (found i).st ≠ .remapped)
    (css : List (List Nat))
    (hl : (css.map List.length).sum ≤ number n fun i => (found i).st = .miss) :
    ∃ m f, mapped n found m₀ css = some (m, f) ∧ Good n m f ∧
      (∀ i, i < n → (found i).st = .hit → m i = found i) ∧
      (∀ i, i < n → (found i).st = .miss → m i ≠ found i →
        (m i).st = .remapped ∧ ∃ cs ∈ css, (m i).coll ∈ cs) ∧
      misses m 0 n + (css.map List.length).sum = number n fun i => (found i).st = .miss := by
  obtain ⟨g0, hk0⟩ := lookup_spec found hf n 0 m₀ ⟨0, 0, 0, 0⟩ (good_zero m₀)
    (fun j hj => absurd hj (by omega))
  rw [Nat.zero_add] at g0 hk0
  unfold mapped
  revert g0 hk0
  generalize lookup found n 0 (m₀, ⟨0, 0, 0, 0⟩) = s
  obtain ⟨m, f⟩ := s
  intro g0 hk0
  have hm0 : misses m 0 n = number n fun i => (found i).st = .miss := by
    unfold misses number
    rw [Nat.sub_zero, ← List.range_eq_range', ← List.countP_eq_length_filter]
    apply List.countP_congr
    intro x hx
    rw [List.mem_range] at hx
    rw [show (m, f).1 = m from rfl] at hk0
    rw [hk0 x hx]
  have aux : ∀ (css : List (List Nat)) (m : Nat → Entry) (f : Info), Good n m f →
      (css.map List.length).sum ≤ misses m 0 n →
      ∃ m' f', css.foldlM (fun s cs => assign n cs 0 s) (m, f) = some (m', f') ∧ Good n m' f' ∧
        (∀ i, (m i).st ≠ .miss → m' i = m i) ∧
        (∀ i, m' i ≠ m i → (m' i).st = .remapped ∧ ∃ cs ∈ css, (m' i).coll ∈ cs) ∧
        misses m' 0 n + (css.map List.length).sum = misses m 0 n := by
    intro css
    induction css with
    | nil => intro m f g _; exact ⟨m, f, rfl, g, fun _ _ => rfl, fun _ h => absurd rfl h, rfl⟩
    | cons cs css ih =>
      intro m f g hl
      rw [List.map_cons, List.sum_cons] at hl
      obtain ⟨m1, f1, h1, h2, h3, h4, h5⟩ := assign_spec n cs 0 m f g (by omega) (by
        intro hne
        have : 0 < cs.length := List.length_pos_iff.2 hne
        rcases Nat.eq_zero_or_pos n with h0 | h0
        · rw [show misses m 0 n = 0 from by rw [h0]; rfl] at hl; omega
        · exact h0)
      obtain ⟨m2, f2, k1, k2, k3, k4, k5⟩ := ih m1 f1 h2 (by omega)
      refine ⟨m2, f2, ?_, k2, ?_, ?_, ?_⟩
      · rw [List.foldlM_cons, h1]; exact k1
      · intro i hi
        have e := h3 i (Or.inr hi)
        rw [k3 i (by rw [e]; exact hi), e]
      · intro i hi
        by_cases he : m2 i = m1 i
        · have := h4 i (by rw [← he]; exact hi)
          rw [he]
          exact ⟨this.1, cs, List.mem_cons_self, this.2⟩
        · obtain ⟨a, cs', b, c⟩ := k4 i he
          exact ⟨a, cs', List.mem_cons_of_mem _ b, c⟩
      · rw [List.map_cons, List.sum_cons]; omega
  obtain ⟨m', f', a1, a2, a3, a4, a5⟩ := aux css m f g0 (by rw [hm0]; exact hl)
  refine ⟨m', f', a1, a2, ?_, ?_, by rw [← hm0]; exact a5⟩
  · intro i hi hh
    have e : m i = found i := hk0 i hi
    rw [a3 i (by rw [e, hh]; intro h; cases h), e]
  · intro i hi _ hne
    have e : m i = found i := hk0 i hi
    exact a4 i (by rw [e]; exact hne)

/-- After lookup and any remapping that gives the request no more cache lines than it misses, no
assertion fails, the counters say exactly what the map says, found lines keep their place, and
exactly as many misses are filled as lines were given, each with one of them. -/
theorem info_exact (n : Nat) (found m₀ : Nat → Entry) (hf : ∀ i, (found i).st ≠ .remapped)
    (css : List (List Nat))
    (hl : (css.map List.length).sum ≤ number n fun i => (found i).st = .miss) :
    ∃ m f, mapped n found m₀ css = some (m, f) ∧ Exact n m f ∧
      (∀ i, i < n → (found i).st = .hit → m i = found i) ∧
      (∀ i, i < n → (found i).st = .miss → m i ≠ found i →
        (m i).st = .remapped ∧ ∃ cs ∈ css, (m i).coll ∈ cs) ∧
      (number n fun i => (m i).st = .miss) + (css.map List.length).sum =
        number n fun i => (found i).st = .miss := by
  obtain ⟨m, f, h1, h2, h3, h4, h5⟩ := mapped_good n found m₀ hf css hl
  have e := exact_of_good h2
  refine ⟨m, f, h1, e, h3, h4, ?_⟩
  rw [← e.unmapped, (unmapped_eq h2).1]
  exact h5

/-- Lines 0 and 2 are hits in cache lines 5 and 7; the miss between gets cache line 6. -/
example :
    (mapped 3 (fun i => if i = 1 then ⟨.miss, 0, false⟩ else ⟨.hit, 5 + i, true⟩)
      (fun _ => ⟨.miss, 0, false⟩) [[6]]).map (fun s => s.2) = some ⟨2, 0, 1, 2⟩ ∧
    ([[6]].map List.length).sum ≤ number 3 fun i =>
      ((if i = 1 then ⟨.miss, 0, false⟩ else ⟨.hit, 5 + i, true⟩ : Entry)).st = .miss := by
  decide

/-- The sequential shortcut is taken only if all lines are mapped, have valid data (or are newly
mapped) and are neighbours in order. -/
theorem sequential_sound (n : Nat) (found m₀ : Nat → Entry) (hf : ∀ i, (found i).st ≠ .remapped)
    (css : List (List Nat)) (hl : (css.map List.length).sum ≤ number n fun i => (found i).st = .miss)
    (m : Nat → Entry) (f : Info) (h : mapped n found m₀ css = some (m, f)) :
    isSequential n f = true ↔
      (∀ i, i < n → ((m i).st = .hit ∧ (m i).valid = true) ∨ (m i).st = .remapped) ∧
      ∀ i, i < n → (m i).coll = (m 0).coll + i := by
  obtain ⟨m', f', h1, h2, -, -, -⟩ := mapped_good n found m₀ hf css hl
  rw [h] at h1
  obtain ⟨rfl, rfl⟩ : m = m' ∧ f = f' := by
    have := Option.some.inj h1
    exact ⟨congrArg Prod.fst this, congrArg Prod.snd this⟩
  have hsum : f.hit + f.insert = (List.range n).countP fun i =>
      (decide ((m i).st = .hit) && (m i).valid) || decide ((m i).st = .remapped) := by
    rw [h2.hit, h2.insert]
    clear h h1 h2 hl
    induction n with
    | zero => rfl
    | succ n ih =>
      rw [countP_range_succ, countP_range_succ, countP_range_succ, ← ih]
      cases (m n).st <;> cases (m n).valid <;> simp <;> omega
  constructor
  · intro hs
    refine ⟨?_, sequential h2 hs⟩
    unfold isSequential at hs
    rw [Bool.and_eq_true, decide_eq_true_eq, decide_eq_true_eq, hsum] at hs
    intro i hi
    have := countP_full hs.1 i hi
    simpa using this
  · rintro ⟨ha, hb⟩
    unfold isSequential
    rw [Bool.and_eq_true, decide_eq_true_eq, decide_eq_true_eq, hsum, h2.seq]
    have full : ∀ (k : Nat) (p : Nat → Bool), (∀ i, i < k → p i = true) →
        (List.range k).countP p = k := by
      intro k p hp
      have : (List.range k).countP p = (List.range k).length :=
        List.countP_eq_length.2 (fun a ha => hp a (List.mem_range.1 ha))
      rw [this, List.length_range]
    refine ⟨full n _ (fun i hi => by simpa using ha i hi), full (n - 1) _ (fun i hi => ?_)⟩
    have hne : ∀ j, j < n → (m j).st ≠ .miss := by
      intro j hj hm
      rcases ha j hj with h | h
      · rw [hm] at h; exact absurd h.1 (by decide)
      · rw [hm] at h; exact absurd h (by decide)
    refine (physCont_iff m i).2 ⟨hne i (by omega), hne (i + 1) (by omega), ?_⟩
    rw [hb i (by omega), hb (i + 1) (by omega)]; omega

example : isSequential 2 ⟨1, 0, 1, 1⟩ = true ∧
    (mapped 2 (fun i => if i = 1 then ⟨.miss, 0, false⟩ else ⟨.hit, 4, true⟩)
      (fun _ => ⟨.miss, 0, false⟩) [[5]]).map (fun s => s.2) = some ⟨1, 0, 1, 1⟩ := by decide

/-! ### I/O to the cache -/

/-- The I/O sent to the cache for a request moves every byte of the request exactly once, in order,
between its offset in the buffer and its place in the cache line its core line is mapped to. No
assertion fails, whichever of the two ways of sending is taken. -/
theorem cache_io_exact (r : Req) (hL : 0 < r.L) (hb : 0 < r.bytes)
    (found m₀ : Nat → Entry) (hf : ∀ i, (found i).st ≠ .remapped) (css : List (List Nat))
    (hl : (css.map List.length).sum ≤ number r.count fun i => (found i).st = .miss)
    (m : Nat → Entry) (f : Info) (h : mapped r.count found m₀ css = some (m, f)) :
    ∃ ios, forwardReq r m f = some ios ∧
      moved ios = (List.range r.bytes).map (byteAt r fun i => (m i).coll) := by
  obtain ⟨m', f', h1, h2, _, _, _⟩ := mapped_good r.count found m₀ hf css hl
  rw [h] at h1
  obtain ⟨rfl, rfl⟩ : m = m' ∧ f = f' := by
    have := Option.some.inj h1
    exact ⟨congrArg Prod.fst this, congrArg Prod.snd this⟩
  have hat : ∀ j, byteAt r (fun i => (m i).coll) j =
      (place r (fun i => (m i).coll) (r.addr % r.L + j), r.off + j) := by
    intro j; rw [place_eq r _ hL]; rfl
  have hmap : (List.range r.bytes).map (byteAt r fun i => (m i).coll) = (List.range r.bytes).map
      fun j => (place r (fun i => (m i).coll) (r.addr % r.L + j), r.off + j) :=
    List.map_congr_left (fun j _ => hat j)
  obtain ⟨sp1, sp2, sp3, _⟩ := span hL hb
  unfold forwardReq
  by_cases hs : isSequential r.count f = true
  · rw [if_pos hs]
    refine ⟨_, rfl, ?_⟩
    have hseq := sequential h2 hs
    show (List.range r.bytes).map _ ++ [] = _
    rw [List.append_nil, hmap]
    apply List.map_congr_left
    intro j hj
    rw [List.mem_range] at hj
    have hlt : (r.addr % r.L + j) / r.L < r.count := by
      rw [Nat.div_lt_iff_lt_mul hL]; omega
    unfold place
    dsimp only
    rw [hseq _ hlt]
    have := Nat.div_add_mod (r.addr % r.L + j) r.L
    rw [Nat.mul_comm] at this
    rw [Nat.add_mul]
    have e : r.base + (m 0).coll * r.L + r.addr % r.L + j = r.base + ((m 0).coll * r.L +
        (r.addr % r.L + j) / r.L * r.L) + (r.addr % r.L + j) % r.L := by
      generalize (r.addr % r.L + j) / r.L * r.L = q at *
      generalize (r.addr % r.L + j) % r.L = t at *
      generalize r.addr % r.L = s at *
      omega
    rw [e]
  · rw [if_neg hs]
    obtain ⟨l, hl1, hl2⟩ := ioLoop_spec r (fun i => (m i).coll) hL hb r.count (r.count - 1) 0 0 0
      (by omega) (by omega) (by rw [if_pos rfl]; omega) (Or.inl rfl) hb
    refine ⟨l, hl1, ?_⟩
    show flat l = _
    rw [hl2, hmap, Nat.sub_zero, ← List.range_eq_range']

/-- Two lines that are not neighbours: two I/Os. -/
example : forwardReq ⟨4096, 100, 4608, 7000, 10⟩ (fun i => ⟨.hit, if i = 0 then 9 else 3, true⟩)
    ⟨2, 0, 0, 0⟩ = some [⟨100 + 9 * 4096 + 512, 3584, 10⟩, ⟨100 + 3 * 4096, 3416, 3594⟩] := by
  decide

/-- Write-only reads: the I/O sent to the cache reads exactly the bytes of the request that lie in
valid sectors of mapped lines, each once and to its own place in the buffer. All other bytes of the
buffer stay as read from the core. -/
theorem overlay_exact (r : Req) (coll : Nat → Nat) (hit : Nat → Bool) (bit : Nat → Nat → Bool)
    (hL : 0 < r.L) (h512 : 512 ∣ r.L) (ha : 512 ∣ r.addr) (hbb : 512 ∣ r.bytes) (hb : 0 < r.bytes) :
    moved (woRead r coll hit bit) =
      ((List.range r.bytes).filter fun j =>
        hit (lineOf r j) && bit (lineOf r j) ((r.addr + j) % r.L / 512)).map (byteAt r coll) := by
  have key : ∀ j, (r.addr % r.L + j) / r.L = lineOf r j ∧ (r.addr % r.L + j) % r.L = (r.addr + j) % r.L := by
    intro j
    have h : r.addr + j = r.addr / r.L * r.L + (r.addr % r.L + j) := by
      have := Nat.div_add_mod r.addr r.L
      rw [Nat.mul_comm] at this
      omega
    have h1 : ∀ q t, (q * r.L + t) / r.L - q = t / r.L ∧ (q * r.L + t) % r.L = t % r.L := by
      intro q t
      refine ⟨?_, Nat.mul_add_mod_self_right _ _ _⟩
      rw [Nat.add_comm, Nat.add_mul_div_right _ _ hL, Nat.add_sub_cancel]
    obtain ⟨k1, k2⟩ := h1 (r.addr / r.L) (r.addr % r.L + j)
    rw [← h] at k1 k2
    exact ⟨k1.symm, k2.symm⟩
  have := woRead_spec (r := r) (coll := coll) (hit := hit) (bit := bit)
    (keep := fun j => hit (lineOf r j) && bit (lineOf r j) ((r.addr + j) % r.L / 512))
    hL h512 ha hbb hb (by intro j; rw [(key j).1, (key j).2])
  show flat _ = _
  rw [this]
  apply List.map_congr_left
  intro j _
  unfold at_
  rw [place_eq r coll hL]; rfl

example : woRead ⟨4096, 0, 3072, 3072, 0⟩ (fun i => 4 + i) (fun _ => true)
    (fun i s => decide (i = 0 ∧ s = 7 ∨ i = 1 ∧ s ≠ 2)) =
    [⟨4 * 4096 + 3584, 1536, 512⟩, ⟨5 * 4096 + 1536, 512, 2560⟩] := by decide

end Verif.Geometry
