import Verif.Model.Stats
import Verif.Lemma.Common

/-!
C42: hits, partial misses and full misses add up to the serviced total, and no percentage exceeds 100 %.
-/

namespace Verif.Stats

/-! ### Specification -/

/-- Requests of a kind counted in a cell, according to the history. -/
def counted (h : List (Cell × Kind)) (i : Cell) (k : Kind) : Nat := h.countP fun x => x = (i, k)

/-- Sum over the cells of one direction. -/
def sum (f : Cell → Req) (g : Req → Nat) (cells : List Nat) (b : Bool) : Nat :=
  (cells.map fun i => g (f (i, b))).sum

/-- A percentage (in hundredths) is at most 100 %. -/
def Stat.Pct (s : Stat) : Prop := s.fraction ≤ 10000

/-! ### Counting and collecting -/

/-- What the reads in `l` add up to, for the direction `b`, when the counters are `f`. -/
def tally (f : Cell → Req) (l : List (Cell × Read)) (b : Bool) (r : Read) : Nat :=
  (l.map fun x => if x.1.2 = b ∧ x.2 = r then
    (match r with
      | .part => (f x.1).part
      | .full => (f x.1).full
      | .total => (f x.1).total
      | .pt => (f x.1).pt) else 0).sum

/-- A field of the counters. -/
def Req.at (q : Req) : Read → Nat
  | .part => q.part
  | .full => q.full
  | .total => q.total
  | .pt => q.pt

theorem tally_nil (f : Cell → Req) (b r) : tally f [] b r = 0 := rfl

theorem tally_cons (f : Cell → Req) (x l b r) :
    tally f (x :: l) b r = (if x.1.2 = b ∧ x.2 = r then (f x.1).at r else 0) + tally f l b r := by
  unfold tally; cases r <;> simp [Req.at]

theorem tally_append (f : Cell → Req) (l m b r) : tally f (l ++ m) b r = tally f l b r + tally f m b r := by
  induction l with
  | nil => simp [tally_nil]
  | cons x l ih => rw [List.cons_append, tally_cons, tally_cons, ih]; omega

theorem tally_mono {f g : Cell → Req} (h : ∀ i r, (f i).at r ≤ (g i).at r) (l b r) :
    tally f l b r ≤ tally g l b r := by
  induction l with
  | nil => simp [tally_nil]
  | cons x l ih =>
      rw [tally_cons, tally_cons]
      have := h x.1 r
      split <;> omega

theorem tally_program (f : Cell → Req) (cells b r) :
    tally f (program cells) b r = sum f (fun q => q.at r) cells b := by
  induction cells with
  | nil => rfl
  | cons i l ih =>
      have : program (i :: l) = ((readOrder.map fun r => ((i, false), r)) ++
          (readOrder.map fun r => ((i, true), r))) ++ program l := by simp [program]
      rw [this, tally_append, ih]
      simp only [sum, List.map_cons, List.sum_cons]
      congr 1
      cases b <;> cases r <;> simp [readOrder, tally_cons, tally_nil]

theorem get_at (a c : Req) (x r : Read) : (get a c x).at r = a.at r + if x = r then c.at r else 0 := by
  cases x <;> cases r <;> simp [get, Req.at]

/-- What follows what in the list of reads. -/
def Shape : List (Cell × Read) → Prop
  | [] => True
  | (i, .part) :: l => l.head? = some (i, .full) ∧ Shape l
  | (i, .full) :: l => l.head? = some (i, .total) ∧ Shape l
  | (i, .total) :: l => l.head? = some (i, .pt) ∧ Shape l
  | (_, .pt) :: l => (∀ x, l.head? = some x → x.2 = .part) ∧ Shape l

theorem program_head (cells : List Nat) : ∀ x, (program cells).head? = some x → x.2 = .part := by
  cases cells with
  | nil => intro x h; simp [program] at h
  | cons i l => intro x h; simp [program, readOrder] at h; rw [← h]

theorem shape_program (cells : List Nat) : Shape (program cells) := by
  induction cells with
  | nil => trivial
  | cons i l ih =>
      have h := program_head l
      have : program (i :: l) = ((i, false), Read.part) :: ((i, false), Read.full) :: ((i, false), Read.total) ::
          ((i, false), Read.pt) :: ((i, true), Read.part) :: ((i, true), Read.full) :: ((i, true), Read.total) ::
          ((i, true), Read.pt) :: program l := by simp [program, readOrder]
      rw [this]
      simp [Shape, ih]
      intro j
      exact ⟨fun r hx => h _ hx, fun r hx => h _ hx⟩

/-- What the collection may still be short of in `total`, for the direction `b`. -/
def credit (f : Cell → Req) (l : List (Cell × Read)) (b : Bool) : Nat :=
  match l with
  | ((i, b'), .full) :: _ => if b' = b then (f (i, b')).part else 0
  | ((i, b'), .total) :: _ => if b' = b then (f (i, b')).part + (f (i, b')).full else 0
  | _ => 0

/-- What holds as long as the counters are not reset. -/
structure Inv (s : St) : Prop where
  full : ∀ i, (s.cnt i).full + s.oweFull i = counted s.hist i .full
  part : ∀ i, (s.cnt i).part + s.owePart i = counted s.hist i .part
  total : ∀ i, (s.cnt i).total = counted s.hist i .hit + counted s.hist i .part + counted s.hist i .full
  pt : ∀ i, (s.cnt i).pt = counted s.hist i .pt
  base : ∀ i r, (s.base i).at r ≤ (s.cnt i).at r
  split : ∃ pre, program s.cells = pre ++ s.todo ∧
    (∀ b r, tally s.base pre b r ≤ (s.acc b).at r ∧ (s.acc b).at r ≤ tally s.cnt pre b r)
  shape : Shape s.todo
  bound : ∀ b, (s.acc b).part + (s.acc b).full ≤ (s.acc b).total + credit s.cnt s.todo b

theorem counted_cons (x h i k) : counted (x :: h) i k = counted h i k + if x = (i, k) then 1 else 0 := by
  simp [counted, List.countP_cons]

theorem kindOf_cases (a b : Nat) : kindOf a b = .hit ∨ kindOf a b = .part ∨ kindOf a b = .full := by
  grind [kindOf]

/-- The counters only grow. -/
theorem grow {s : St} (h : Inv s) (c : Cell → Req) (hc : ∀ i r, (s.cnt i).at r ≤ (c i).at r) :
    (∀ i r, (s.base i).at r ≤ (c i).at r) ∧
    (∃ pre, program s.cells = pre ++ s.todo ∧
      (∀ b r, tally s.base pre b r ≤ (s.acc b).at r ∧ (s.acc b).at r ≤ tally c pre b r)) ∧
    (∀ b, (s.acc b).part + (s.acc b).full ≤ (s.acc b).total + credit c s.todo b) := by
  refine ⟨fun i r => Nat.le_trans (h.base i r) (hc i r), ?_, ?_⟩
  · obtain ⟨pre, hp, hb⟩ := h.split
    exact ⟨pre, hp, fun b r => ⟨(hb b r).1, Nat.le_trans (hb b r).2 (tally_mono hc _ _ _)⟩⟩
  · intro b
    have h1 := h.bound b
    have : credit s.cnt s.todo b ≤ credit c s.todo b := by
      unfold credit
      split
      · have := hc (‹Nat›, ‹Bool›) .part
        split <;> simp_all [Req.at]
      · have h1 := hc (‹Nat›, ‹Bool›) .part
        have h2 := hc (‹Nat›, ‹Bool›) .full
        split <;> simp_all [Req.at]
        omega
      · exact Nat.le_refl _
    omega

theorem inv_step {s t : St} (h : Inv s) (st : Step false s t) : Inv t := by
  cases st with
  | count i a b =>
      obtain ⟨g1, g2, g3⟩ := grow h (upd s.cnt i { s.cnt i with total := (s.cnt i).total + 1 })
        (by
          intro j r; unfold upd; split
          · subst j; cases r <;> simp [Req.at]
          · exact Nat.le_refl _)
      have hf := h.full; have hp := h.part; have ht := h.total; have hpt := h.pt
      refine ⟨?_, ?_, ?_, ?_, g1, g2, h.shape, g3⟩ <;> intro j <;> simp only [counted_cons, upd] <;>
        specialize hf j <;> specialize hp j <;> specialize ht j <;> specialize hpt j <;>
        clear g1 g2 g3 <;> rcases kindOf_cases a b with hk | hk | hk <;> rw [hk] <;>
        (by_cases e : i = j
         · subst e; simp [upd] <;> omega
         · simp [upd, e, show ¬ j = i from fun h => e h.symm] <;> omega)
  | missFull i hi =>
      obtain ⟨g1, g2, g3⟩ := grow h (upd s.cnt i { s.cnt i with full := (s.cnt i).full + 1 })
        (by
          intro j r; unfold upd; split
          · subst j; cases r <;> simp [Req.at]
          · exact Nat.le_refl _)
      have hf := h.full; have hp := h.part; have ht := h.total; have hpt := h.pt
      refine ⟨?_, ?_, ?_, ?_, g1, g2, h.shape, g3⟩ <;> intro j <;> simp only [upd] <;>
        specialize hf j <;> specialize hp j <;> specialize ht j <;> specialize hpt j <;> grind
  | missPart i hi =>
      obtain ⟨g1, g2, g3⟩ := grow h (upd s.cnt i { s.cnt i with part := (s.cnt i).part + 1 })
        (by
          intro j r; unfold upd; split
          · subst j; cases r <;> simp [Req.at]
          · exact Nat.le_refl _)
      have hf := h.full; have hp := h.part; have ht := h.total; have hpt := h.pt
      refine ⟨?_, ?_, ?_, ?_, g1, g2, h.shape, g3⟩ <;> intro j <;> simp only [upd] <;>
        specialize hf j <;> specialize hp j <;> specialize ht j <;> specialize hpt j <;> grind
  | pass i =>
      obtain ⟨g1, g2, g3⟩ := grow h (upd s.cnt i { s.cnt i with pt := (s.cnt i).pt + 1 })
        (by
          intro j r; unfold upd; split
          · subst j; cases r <;> simp [Req.at]
          · exact Nat.le_refl _)
      have hf := h.full; have hp := h.part; have ht := h.total; have hpt := h.pt
      refine ⟨?_, ?_, ?_, ?_, g1, g2, h.shape, g3⟩ <;> intro j <;> simp only [counted_cons, upd] <;>
        specialize hf j <;> specialize hp j <;> specialize ht j <;> specialize hpt j <;> grind
  | start cells h0 =>
      refine ⟨h.full, h.part, h.total, h.pt, fun _ _ => Nat.le_refl _, ⟨[], rfl, ?_⟩, shape_program _, ?_⟩
      · intro b r; cases r <;> simp [tally_nil, Req.at]
      · intro b; simp
  | read i r rest h0 =>
      have hs := h.shape
      refine ⟨h.full, h.part, h.total, h.pt, h.base, ?_, ?_, ?_⟩
      · obtain ⟨pre, hp, hb⟩ := h.split
        refine ⟨pre ++ [(i, r)], by rw [hp, h0]; simp, ?_⟩
        intro b x
        have hb := hb b x
        have hbase := h.base i x
        rw [tally_append, tally_append, tally_cons, tally_cons, tally_nil, tally_nil]
        simp only [upd]
        by_cases e : i.2 = b
        · subst b
          rw [if_pos rfl, get_at]
          by_cases e' : r = x <;> simp [e'] <;> omega
        · rw [if_neg (show ¬ b = i.2 from fun h => e h.symm)]; simp [e]; omega
      · rw [h0] at hs
        cases r <;> exact hs.2
      · intro b
        have hb := h.bound b
        rw [h0] at hb hs
        obtain ⟨i, d⟩ := i
        simp only [upd]
        cases r
        · obtain ⟨hh, _⟩ := hs
          match rest, hh with
          | y :: l, hh =>
            simp at hh; subst hh
            simp [credit] at hb ⊢
            by_cases e : b = d
            · subst b; simp [get]; omega
            · simp [e, show ¬ d = b from fun h => e h.symm]; omega
        · obtain ⟨hh, _⟩ := hs
          match rest, hh with
          | y :: l, hh =>
            simp at hh; subst hh
            simp [credit] at hb ⊢
            by_cases e : b = d
            · subst b; simp [get] at hb ⊢; omega
            · simp [e, show ¬ d = b from fun h => e h.symm] at hb ⊢; omega
        · obtain ⟨hh, _⟩ := hs
          have h1 := h.full (i, d); have h2 := h.part (i, d); have h3 := h.total (i, d)
          match rest, hh with
          | y :: l, hh =>
            simp at hh; subst hh
            simp [credit] at hb ⊢
            by_cases e : b = d
            · subst b; simp [get] at hb ⊢; omega
            · simp [e, show ¬ d = b from fun h => e h.symm] at hb ⊢; omega
        · obtain ⟨hh, _⟩ := hs
          simp [credit] at hb
          have : credit s.cnt rest b = 0 := by
            match rest, hh with
            | [], _ => rfl
            | y :: l, hh =>
              have := hh y rfl
              obtain ⟨a, c⟩ := y
              simp at this; subst this
              rfl
          rw [this]
          by_cases e : b = d
          · subst b; simp [get] at hb ⊢; omega
          · simp [e] at hb ⊢; omega
  | zero i r hr => cases hr

theorem inv_init : Inv init := by
  refine ⟨?_, ?_, ?_, ?_, ?_, ⟨[], rfl, ?_⟩, trivial, ?_⟩ <;> (intros; try simp [init, counted, tally_nil])
  rename_i r; cases r <;> rfl

theorem inv {s : St} (h : Reach (fun s => s = init) (Step false) s) : Inv s :=
  Reach.inv (P := Inv) (fun s (h : s = init) => h ▸ inv_init) (fun _ _ h st => inv_step h st) s h

/-- The counters hold exactly the requests counted, apart from the misses of updates in progress. -/
theorem counters_exact {s : St} (h : Reach (fun s => s = init) (Step false) s) (i : Cell) :
    (s.cnt i).total = counted s.hist i .hit + counted s.hist i .part + counted s.hist i .full ∧
    (s.cnt i).full + s.oweFull i = counted s.hist i .full ∧
    (s.cnt i).part + s.owePart i = counted s.hist i .part ∧
    (s.cnt i).pt = counted s.hist i .pt :=
  ⟨(inv h).total i, (inv h).full i, (inv h).part i, (inv h).pt i⟩

/-- A request is a full miss if it hit nothing, a hit if it hit all of its lines, and otherwise a partial miss. -/
theorem kind_exact (hits lines : Nat) (hl : 0 < lines) (hh : hits ≤ lines) :
    (kindOf hits lines = .full ↔ hits = 0) ∧ (kindOf hits lines = .hit ↔ hits = lines) ∧
    (kindOf hits lines = .part ↔ 0 < hits ∧ hits < lines) := by
  grind [kindOf]

/-- A collection that ran together with any number of updates never finds more misses than requests. -/
theorem misses_le_total {s : St} (h : Reach (fun s => s = init) (Step false) s) (h0 : s.todo = []) (b : Bool) :
    (s.acc b).part + (s.acc b).full ≤ (s.acc b).total := by
  have := (inv h).bound b
  rw [h0] at this
  exact this

/-- What a collection finds lies between the counters at its start and at its end. -/
theorem collected_between {s : St} (h : Reach (fun s => s = init) (Step false) s) (h0 : s.todo = []) (b : Bool)
    (r : Read) :
    sum s.base (fun q => q.at r) s.cells b ≤ (s.acc b).at r ∧
    (s.acc b).at r ≤ sum s.cnt (fun q => q.at r) s.cells b := by
  obtain ⟨pre, hp, hb⟩ := (inv h).split
  rw [h0, List.append_nil] at hp
  rw [← tally_program, ← tally_program, hp]
  exact hb b r

/-! ### The figures reported -/

theorem fraction_le {n d : Nat} (h : n ≤ d) (hd : 10000 * n < 2 ^ 64) : fraction n d ≤ 10000 := by
  unfold fraction
  split
  · omega
  · rw [Nat.mod_eq_of_lt hd]
    exact Nat.div_le_of_le_mul (by rw [Nat.mul_comm]; exact Nat.mul_le_mul_right _ h)

theorem sub64_of_le {a b : Nat} (h : b ≤ a) (ha : a < 2 ^ 64) : sub64 a b = a - b := by
  unfold sub64
  rw [Nat.mod_eq_of_lt (by omega : b < 2 ^ 64)]
  omega

/-- Hits, partial misses and full misses add up to the total of each direction, both totals to the serviced
requests, these and pass-through to all; and every percentage is at most 100 %. -/
theorem requests_add_up (r w : Req) (hr : r.part + r.full ≤ r.total) (hw : w.part + w.full ≤ w.total)
    (hb : 10000 * (r.total + w.total + r.pt + w.pt) < 2 ^ 64) :
    let q := fillReq r w
    q.rdHits.value + q.rdPart.value + q.rdFull.value = q.rdTotal.value ∧
    q.wrHits.value + q.wrPart.value + q.wrFull.value = q.wrTotal.value ∧
    q.rdTotal.value + q.wrTotal.value = q.serviced.value ∧
    q.serviced.value + q.rdPt.value + q.wrPt.value = q.total.value ∧
    q.rdHits.Pct ∧ q.rdPart.Pct ∧ q.rdFull.Pct ∧ q.rdTotal.Pct ∧ q.wrHits.Pct ∧ q.wrPart.Pct ∧ q.wrFull.Pct ∧
    q.wrTotal.Pct ∧ q.rdPt.Pct ∧ q.wrPt.Pct ∧ q.serviced.Pct ∧ q.total.Pct := by
  have e1 : (r.total + w.total) % 2 ^ 64 = r.total + w.total := Nat.mod_eq_of_lt (by omega)
  have e2 : (r.total + w.total + r.pt + w.pt) % 2 ^ 64 = r.total + w.total + r.pt + w.pt :=
    Nat.mod_eq_of_lt (by omega)
  have e3 : sub64 r.total (r.full + r.part) = r.total - (r.full + r.part) := sub64_of_le (by omega) (by omega)
  have e4 : sub64 w.total (w.full + w.part) = w.total - (w.full + w.part) := sub64_of_le (by omega) (by omega)
  simp only [fillReq, set, Stat.Pct, e1, e2, e3, e4]
  refine ⟨by omega, by omega, trivial, trivial, ?_⟩
  refine ⟨?_, ?_, ?_, ?_, ?_, ?_, ?_, ?_, ?_, ?_, ?_, ?_⟩ <;> exact fraction_le (by omega) (by omega)

/-- Every collection that ends reports consistent figures, whatever runs together with it, as long as the counters
are not reset. -/
theorem report_consistent_partial {s : St} (h : Reach (fun s => s = init) (Step false) s) (h0 : s.todo = [])
    (hb : 10000 * ((s.acc false).total + (s.acc true).total + (s.acc false).pt + (s.acc true).pt) < 2 ^ 64) :
    let q := fillReq (s.acc false) (s.acc true)
    q.rdHits.value + q.rdPart.value + q.rdFull.value = q.rdTotal.value ∧
    q.wrHits.value + q.wrPart.value + q.wrFull.value = q.wrTotal.value ∧
    q.rdTotal.value + q.wrTotal.value = q.serviced.value ∧
    q.serviced.value + q.rdPt.value + q.wrPt.value = q.total.value ∧
    q.rdHits.Pct ∧ q.rdPart.Pct ∧ q.rdFull.Pct ∧ q.rdTotal.Pct ∧ q.wrHits.Pct ∧ q.wrPart.Pct ∧ q.wrFull.Pct ∧
    q.wrTotal.Pct ∧ q.rdPt.Pct ∧ q.wrPt.Pct ∧ q.serviced.Pct ∧ q.total.Pct :=
  requests_add_up _ _ (misses_le_total h h0 false) (misses_le_total h h0 true) hb

/-- What is reported for a device when no request is in progress: the values are those of the history. -/
theorem report_exact {s : St} (h : Reach (fun s => s = init) (Step false) s) (h0 : s.todo = [])
    (hq : ∀ i, s.oweFull i = 0 ∧ s.owePart i = 0) (hs : s.base = s.cnt) (b : Bool) :
    (s.acc b).total = (s.cells.map fun i => counted s.hist (i, b) .hit + counted s.hist (i, b) .part +
      counted s.hist (i, b) .full).sum ∧
    (s.acc b).full = (s.cells.map fun i => counted s.hist (i, b) .full).sum ∧
    (s.acc b).part = (s.cells.map fun i => counted s.hist (i, b) .part).sum ∧
    (s.acc b).pt = (s.cells.map fun i => counted s.hist (i, b) .pt).sum := by
  have hv := inv h
  have key : ∀ r, (s.acc b).at r = sum s.cnt (fun q => q.at r) s.cells b := by
    intro r
    have := collected_between h h0 b r
    rw [hs] at this
    omega
  have e1 : ∀ i, (s.cnt i).full = counted s.hist i .full := fun i => by
    have := hv.full i; have := hq i; omega
  have e2 : ∀ i, (s.cnt i).part = counted s.hist i .part := fun i => by
    have := hv.part i; have := hq i; omega
  refine ⟨(key .total).trans ?_, (key .full).trans ?_, (key .part).trans ?_, (key .pt).trans ?_⟩ <;>
    simp only [sum, Req.at]
  · simp only [hv.total]
  · simp only [e1]
  · simp only [e2]
  · simp only [hv.pt]

/-- Blocks and errors: reads and writes add up to the total and no percentage exceeds 100 %. -/
theorem pair_adds_up (rd wr : Nat) (hb : 10000 * (rd + wr) < 2 ^ 64) :
    let q := fillPair rd wr
    q.1.value = rd ∧ q.2.1.value = wr ∧ q.1.value + q.2.1.value = q.2.2.value ∧
    q.1.Pct ∧ q.2.1.Pct ∧ q.2.2.Pct := by
  have e1 : (rd + wr) % 2 ^ 64 = rd + wr := Nat.mod_eq_of_lt (by omega)
  simp only [fillPair, set, Stat.Pct, e1]
  refine ⟨trivial, trivial, trivial, ?_, ?_, ?_⟩ <;> exact fraction_le (by omega) (by omega)

/-- Blocks of 4 KiB: as many as needed to hold the bytes. -/
theorem blocks_round_up (b : Nat) (hb : b + 4095 < 2 ^ 64) :
    b ≤ bytes4k b * 4096 ∧ bytes4k b * 4096 < b + 4096 := by
  unfold bytes4k
  rw [Nat.mod_eq_of_lt hb]
  omega

theorem lines4k_eq {n L k : Nat} (hL : L = 4096 * k) (h : n * k < 2 ^ 64) : lines4k n L = n * k := by
  unfold lines4k
  have : L / 4096 = k := by omega
  rw [this, Nat.mod_eq_of_lt h]

/-- Usage of the cache: occupancy and free add up to the size, clean and dirty to occupancy, and no percentage
exceeds 100 %. -/
theorem cache_usage (occ dirty size L k : Nat) (hL : L = 4096 * k) (h1 : dirty ≤ occ) (h2 : occ ≤ size)
    (hb : 10000 * (size * k) < 2 ^ 64) (hs : size < 2 ^ 64) :
    let u := usageCache occ dirty size L
    u.occupancy.value + u.free.value = size * k ∧ u.clean.value + u.dirty.value = u.occupancy.value ∧
    u.occupancy.Pct ∧ u.free.Pct ∧ u.clean.Pct ∧ u.dirty.Pct := by
  have m1 : occ * k ≤ size * k := Nat.mul_le_mul_right _ h2
  have m2 : dirty * k ≤ occ * k := Nat.mul_le_mul_right _ h1
  have m3 : (size - occ) * k = size * k - occ * k := Nat.sub_mul ..
  have m4 : (occ - dirty) * k = occ * k - dirty * k := Nat.sub_mul ..
  have e1 : sub64 size occ = size - occ := sub64_of_le h2 hs
  have e2 : sub64 occ dirty = occ - dirty := sub64_of_le h1 (by omega)
  simp only [usageCache, set, Stat.Pct, e1, e2]
  rw [lines4k_eq (n := occ) hL (by omega), lines4k_eq (n := size) hL (by omega),
    lines4k_eq (n := dirty) hL (by omega), lines4k_eq (n := size - occ) hL (by omega),
    lines4k_eq (n := occ - dirty) hL (by omega), m3, m4]
  refine ⟨by omega, by omega, ?_, ?_, ?_, ?_⟩ <;> exact fraction_le (by omega) (by omega)

/-- Usage of a core: clean and dirty add up to its occupancy, free is what no core uses, and no percentage exceeds
100 %. -/
theorem core_usage (occ dirty all size L k : Nat) (hL : L = 4096 * k) (h1 : dirty ≤ occ) (h2 : occ ≤ size)
    (h3 : all ≤ size) (hb : 10000 * (size * k) < 2 ^ 64) (hs : size < 2 ^ 64) :
    let u := usageCore occ dirty all size L
    u.occupancy.value = occ * k ∧ u.free.value = (size - all) * k ∧
    u.clean.value + u.dirty.value = u.occupancy.value ∧
    u.occupancy.Pct ∧ u.free.Pct ∧ u.clean.Pct ∧ u.dirty.Pct := by
  have m1 : occ * k ≤ size * k := Nat.mul_le_mul_right _ h2
  have m2 : dirty * k ≤ occ * k := Nat.mul_le_mul_right _ h1
  have m3 : (size - all) * k = size * k - all * k := Nat.sub_mul ..
  have m4 : (occ - dirty) * k = occ * k - dirty * k := Nat.sub_mul ..
  have m5 : all * k ≤ size * k := Nat.mul_le_mul_right _ h3
  have e1 : sub64 size all = size - all := sub64_of_le h3 hs
  have e2 : sub64 occ dirty = occ - dirty := sub64_of_le h1 (by omega)
  simp only [usageCore, set, Stat.Pct, e1, e2]
  rw [lines4k_eq (n := occ) hL (by omega), lines4k_eq (n := size) hL (by omega),
    lines4k_eq (n := dirty) hL (by omega), lines4k_eq (n := size - all) hL (by omega),
    lines4k_eq (n := occ - dirty) hL (by omega), m3, m4]
  refine ⟨rfl, rfl, by omega, ?_, ?_, ?_, ?_⟩ <;> exact fraction_le (by omega) (by omega)

/-- Usage of an I/O class; nothing is reported as free. -/
theorem part_usage (occ dirty size L k : Nat) (hL : L = 4096 * k) (h1 : dirty ≤ occ) (h2 : occ ≤ size)
    (hb : 10000 * (size * k) < 2 ^ 64) (hs : size < 2 ^ 64) :
    let u := usagePart occ dirty size L
    u.occupancy.value = occ * k ∧ u.free.value = 0 ∧ u.clean.value + u.dirty.value = u.occupancy.value ∧
    u.occupancy.Pct ∧ u.free.Pct ∧ u.clean.Pct ∧ u.dirty.Pct := by
  have m1 : occ * k ≤ size * k := Nat.mul_le_mul_right _ h2
  have m2 : dirty * k ≤ occ * k := Nat.mul_le_mul_right _ h1
  have m4 : (occ - dirty) * k = occ * k - dirty * k := Nat.sub_mul ..
  have e2 : sub64 occ dirty = occ - dirty := sub64_of_le h1 (by omega)
  simp only [usagePart, set, Stat.Pct, e2]
  rw [lines4k_eq (n := occ) hL (by omega), lines4k_eq (n := size) hL (by omega),
    lines4k_eq (n := dirty) hL (by omega), lines4k_eq (n := 0) hL (by omega),
    lines4k_eq (n := occ - dirty) hL (by omega), m4, Nat.zero_mul]
  refine ⟨rfl, rfl, by omega, ?_, ?_, ?_, ?_⟩ <;> exact fraction_le (by omega) (by omega)

/-! ### Where the code falls short -/

/-- A reset between the two increments of an update leaves a miss without a request: from then on the number of
hits reported is 2^64 - 1. -/
theorem reset_underflow : ∃ s : St, Reach (fun s => s = init) (Step true) s ∧ s.todo = [] ∧
    s.hist.length = 1 ∧ (fillReq (s.acc false) (s.acc true)).rdHits.value = 2 ^ 64 - 1 := by
  have h0 : Reach (fun s => s = init) (Step true) init := .init rfl
  have h1 := Reach.step h0 (.count _ (0, false) 0 1)
  have h2 := Reach.step h1 (.zero _ (0, false) .full rfl)
  have h3 := Reach.step h2 (.zero _ (0, false) .part rfl)
  have h4 := Reach.step h3 (.zero _ (0, false) .total rfl)
  have h5 := Reach.step h4 (.missFull _ (0, false) (by decide))
  have h6 := Reach.step h5 (.start _ [0] rfl)
  have h7 := Reach.step h6 (.read _ (0, false) .part _ rfl)
  have h8 := Reach.step h7 (.read _ (0, false) .full _ rfl)
  have h9 := Reach.step h8 (.read _ (0, false) .total _ rfl)
  have h10 := Reach.step h9 (.read _ (0, false) .pt _ rfl)
  have h11 := Reach.step h10 (.read _ (0, true) .part _ rfl)
  have h12 := Reach.step h11 (.read _ (0, true) .full _ rfl)
  have h13 := Reach.step h12 (.read _ (0, true) .total _ rfl)
  have h14 := Reach.step h13 (.read _ (0, true) .pt _ rfl)
  exact ⟨_, h14, rfl, rfl, by decide +kernel⟩

/-- A line that becomes cached and dirty between the reads of both numbers makes the number of clean lines
negative, although there never are more dirty lines than cached ones. -/
theorem usage_underflow : ∃ s : Lines, Reach (fun s => s = ⟨0, 0, none, none⟩) LStep s ∧ s.dirty ≤ s.cached ∧
    s.occ = some 0 ∧ s.drt = some 1 ∧ (usageCore 0 1 1 10 4096).clean.value = 2 ^ 64 - 1 := by
  have h0 : Reach (fun s => s = ⟨0, 0, none, none⟩) LStep ⟨0, 0, none, none⟩ := .init rfl
  have h1 := Reach.step h0 (.readOcc _ rfl)
  have h2 := Reach.step h1 (.insert _)
  have h3 := Reach.step h2 (.dirty _ (by decide))
  have h4 := Reach.step h3 (.readDirty _ (by simp) rfl)
  exact ⟨_, h4, by decide, rfl, rfl, by decide +kernel⟩

/-- There never are more dirty lines than cached ones. -/
theorem dirty_le_cached {s : Lines} (h : Reach (fun s => s = ⟨0, 0, none, none⟩) LStep s) : s.dirty ≤ s.cached := by
  refine Reach.inv (P := fun s => s.dirty ≤ s.cached) ?_ ?_ s h
  · rintro _ rfl; simp
  · intro s t h st
    cases st <;> simp only <;> omega

/-! ### Examples -/

/-- A run with three requests; the collection ends while the last has counted itself but not its miss. -/
example : ∃ s : St, Reach (fun s => s = init) (Step false) s ∧ s.todo = [] ∧ s.hist.length = 3 ∧
    s.acc false = ⟨0, 1, 3, 0⟩ ∧ (fillReq (s.acc false) (s.acc true)).rdHits = ⟨2, 6666⟩ := by
  have h0 : Reach (fun s => s = init) (Step false) init := .init rfl
  have h1 := Reach.step h0 (.count _ (0, false) 0 1)
  have h2 := Reach.step h1 (.missFull _ (0, false) (by decide))
  have h3 := Reach.step h2 (.count _ (0, false) 2 2)
  have h6 := Reach.step h3 (.start _ [0] rfl)
  have h7 := Reach.step h6 (.read _ (0, false) .part _ rfl)
  have h8 := Reach.step h7 (.read _ (0, false) .full _ rfl)
  have h8 := Reach.step h8 (.count _ (0, false) 1 2)
  have h9 := Reach.step h8 (.read _ (0, false) .total _ rfl)
  have h10 := Reach.step h9 (.read _ (0, false) .pt _ rfl)
  have h11 := Reach.step h10 (.read _ (0, true) .part _ rfl)
  have h12 := Reach.step h11 (.read _ (0, true) .full _ rfl)
  have h13 := Reach.step h12 (.read _ (0, true) .total _ rfl)
  have h14 := Reach.step h13 (.read _ (0, true) .pt _ rfl)
  exact ⟨_, h14, rfl, rfl, by decide +kernel, by decide +kernel⟩

example : (fillReq ⟨1, 211, 222, 3⟩ ⟨0, 1, 5, 0⟩).rdFull.Pct ∧ (fillReq ⟨1, 211, 222, 3⟩ ⟨0, 1, 5, 0⟩).rdHits.value = 10 :=
  ⟨(requests_add_up ⟨1, 211, 222, 3⟩ ⟨0, 1, 5, 0⟩ (by decide) (by decide) (by decide)).2.2.2.2.2.2.1, by decide +kernel⟩

example : (usageCore 20 5 30 40 8192).clean = ⟨30, 7500⟩ ∧ (usageCore 20 5 30 40 8192).clean.Pct :=
  ⟨by decide +kernel, (core_usage 20 5 30 40 8192 2 rfl (by decide) (by decide) (by decide) (by decide)
    (by decide)).2.2.2.2.2.1⟩

example : (usageCache 20 5 40 4096).free.value = 20 ∧ (usageCache 20 5 40 4096).dirty.Pct :=
  ⟨by decide +kernel, (cache_usage 20 5 40 4096 1 rfl (by decide) (by decide) (by decide) (by decide)).2.2.2.2.2⟩

example : (usagePart 20 5 40 4096).dirty.Pct :=
  (part_usage 20 5 40 4096 1 rfl (by decide) (by decide) (by decide) (by decide)).2.2.2.2.2.2

example : fillBlocks 5000 4096 = (⟨2, 6666⟩, ⟨1, 3333⟩, ⟨3, 10000⟩) := by decide +kernel

end Verif.Stats
