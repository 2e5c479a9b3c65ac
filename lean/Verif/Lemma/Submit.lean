import Verif.Model.Submit
import Verif.Lemma.Common

/-! Lemmas on submissions (C59). -/

namespace Verif.Submit

/-- The first error, 0 without one. -/
def firstErr : List Int → Int
  | [] => 0
  | e :: l => if e ≠ 0 then e else firstErr l

theorem firstErr_snoc (l : List Int) (e : Int) :
    firstErr (l ++ [e]) = if firstErr l ≠ 0 then firstErr l else e := by
  induction l with
  | nil => simp only [List.nil_append, firstErr]; split <;> simp_all
  | cons a l ih =>
    simp only [List.cons_append, firstErr]
    split
    · simp
    · exact ih

/-- The parts follow one another from `a` to `b`, none empty, none longer than `m`. -/
def Tile (m : Nat) : Nat → List (Nat × Nat) → Nat → Prop
  | a, [], b => a = b
  | a, p :: l, b => p.1 = a ∧ 0 < p.2 ∧ p.2 ≤ m ∧ Tile m (a + p.2) l b

theorem Tile.snoc {m a b n : Nat} {l : List (Nat × Nat)} (h : Tile m a l b) (h0 : 0 < n) (hm : n ≤ m) :
    Tile m a (l ++ [(b, n)]) (b + n) := by
  induction l generalizing a with
  | nil => simp only [Tile] at h; subst h; exact ⟨rfl, h0, hm, rfl⟩
  | cons p l ih => exact ⟨h.1, h.2.1, h.2.2.1, ih h.2.2.2⟩

/-- Largest part. -/
def lim : Kind → Nat
  | .zeros _ _ => maxZeros
  | _ => maxDiscard

theorem bytes_eq (k : Kind) (n : Nat) : bytes k n = min n (lim k) := by
  unfold bytes lim
  cases k with
  | zeros a l =>
    simp only
    apply Nat.mod_eq_of_lt
    have : min n maxZeros ≤ maxZeros := Nat.min_le_right ..
    have : maxZeros < 2 ^ 32 := by decide
    omega
  | flush => rfl
  | discard a l => rfl
  | page w a => rfl

/-- Start and end of the range of a loop. -/
def range : Kind → Option (Nat × Nat)
  | .discard a n => some (a, a + n)
  | .zeros a n => some (a, a + n)
  | _ => none

/-- What has been forwarded. -/
def PartsOk (s : St) : Prop :=
  match s.pc with
  | .start => s.parts = []
  | .one => s.parts = [] ∧ range s.kind = none
  | .loop a n => ∃ x y, range s.kind = some (x, y) ∧ Tile (lim s.kind) x s.parts a ∧ a + n = y
  | .ret => s.ok = true → match s.kind with
    | .flush => s.parts = [(0, 0)]
    | .page _ a => s.parts = [(a, 4096)]
    | .discard a n => Tile maxDiscard a s.parts (a + n)
    | .zeros a n => Tile maxZeros a s.parts (a + n)

/-- References of the submitter. -/
def mine : Pc → Nat
  | .loop _ _ => 1
  | _ => 0

/-- Zeroing. -/
def isZeros : Kind → Bool
  | .zeros _ _ => true
  | _ => false

/-- A page. -/
def isPage : Kind → Bool
  | .page _ _ => true
  | _ => false

/-- Whether the submission is over: returned, no part under way. -/
def Over (s : St) : Prop := s.pc = .ret ∧ s.out = 0

/-- What holds of a submission. -/
structure Inv (s : St) : Prop where
  st : s.pc = .start → s.cnt = 0 ∧ s.out = 0 ∧ s.errs = [] ∧ s.rep = [] ∧ s.crash = false ∧
    s.ctx = false ∧ s.req = false ∧ s.dat = false ∧ s.ok = false ∧ s.err = 0 ∧ s.sent = [] ∧ s.cb = false
  okk : s.pc ≠ .start → s.pc ≠ .ret → s.ok = true
  bad : s.bad = false
  cnt : s.cnt = s.out + mine s.pc
  err : s.err = firstErr s.errs
  parts : PartsOk s
  nout : s.errs.length + s.out = s.parts.length
  snt : s.sent.length = s.parts.length
  live : s.ok = true → ¬ Over s → s.ctx = true ∧ s.req = true ∧ s.rep = [] ∧ s.crash = false ∧
    s.dat = isPage s.kind ∧ s.cb = !isZeros s.kind
  over : s.ok = true → Over s →
    if isZeros s.kind then s.crash = true ∧ s.rep = [] ∧ s.ctx = true ∧ s.req = true
    else s.crash = false ∧ s.rep = [s.err] ∧ s.ctx = false ∧ s.req = false ∧ s.dat = false
  nok : s.ok = false → s.pc = .ret → s.out = 0 ∧ s.parts = [] ∧ s.rep = [noMem] ∧ s.ctx = false ∧ s.req = false ∧
    s.dat = false ∧ s.crash = false ∧ s.errs = []
  wr : ∀ a, s.kind = .page true a → s.ok = true → s.data = s.buf ∧ ∀ x ∈ s.sent, x = s.buf
  rd : ∀ a, s.kind = .page false a → s.ok = true → s.errs = [0] → s.data = s.got ∧ (Over s → s.buf = s.got)

theorem inv_init {s : St} (h : Init s) : Inv s := by
  obtain ⟨k, b, rfl⟩ := h
  constructor <;> simp [mine, firstErr, PartsOk, Over]

theorem lim_pos (k : Kind) : 0 < lim k := by
  have h1 : 0 < maxDiscard := by unfold maxDiscard; omega
  have h2 : 0 < maxZeros := by unfold maxZeros; omega
  cases k with
  | zeros a n => exact h2
  | flush => exact h1
  | discard a n => exact h1
  | page w a => exact h1

theorem Inv.submit {s : St} (h : Inv s) (hs : s.pc = .start) (i : In) : Inv (submit s i) := by
  obtain ⟨h1, h2, h3, h4, h5, h6, h7, h8, h9, h10, h11, h12⟩ := h.st hs
  have hp : s.parts = [] := by
    have := h.parts; unfold PartsOk at this; rw [hs] at this; exact this
  have hb := h.bad
  obtain ⟨k, pc, cnt, err, cb, out, parts, ctx, req, dat, buf, data, rep, errs, got, sent, ok, crash, bad⟩ := s
  simp only at *
  subst h1 h2 h3 h4 h5 h6 h7 h8 h9 h10 h11 h12 hp hb hs
  obtain ⟨a, b, c⟩ := i
  cases a
  · constructor <;> simp [Submit.submit, fail, mine, firstErr, PartsOk, Over]
  cases b
  · constructor <;> simp [Submit.submit, fail, mine, firstErr, PartsOk, Over]
  cases k with
  | flush => constructor <;> simp [Submit.submit, mine, firstErr, PartsOk, Over, range, isPage, isZeros]
  | discard x n => constructor <;> simp [Submit.submit, mine, firstErr, PartsOk, Over, range, isPage, isZeros, Tile]
  | zeros x n => constructor <;> simp [Submit.submit, mine, firstErr, PartsOk, Over, range, isPage, isZeros, Tile]
  | page w x =>
    cases c
    · constructor <;> simp [Submit.submit, fail, mine, firstErr, PartsOk, Over]
    · cases w <;> constructor <;> simp [Submit.submit, mine, firstErr, PartsOk, Over, range, isPage, isZeros]

/-- A reference is dropped and others are left. -/
theorem put_more {s : St} (hr : s.req = true) (hc : 1 < s.cnt) : put s = { s with cnt := s.cnt - 1 } := by
  unfold put
  simp only [hr, Bool.not_true, Bool.or_false]
  rw [if_neg (by omega)]

/-- The last reference is dropped. -/
theorem put_last {s : St} (hr : s.req = true) (hx : s.ctx = true) (hc : s.cnt = 1) (hcb : s.cb = !isZeros s.kind) :
    put s = if isZeros s.kind then { s with cnt := 0, crash := true }
      else { s with cnt := 0, rep := s.rep ++ [s.err], ctx := false, req := false, dat := false
                    buf := match s.kind with | .page false _ => s.data | _ => s.buf } := by
  unfold put
  simp only [hr, Bool.not_true, Bool.or_false]
  rw [if_pos (by omega)]
  cases hz : isZeros s.kind
  · rw [hz] at hcb
    simp only [hcb, Bool.not_false, if_true, Bool.false_eq_true, if_false]
    unfold complete
    simp only [hx, Bool.not_true, Bool.or_false, hc]
    split <;> simp_all
  · rw [hz] at hcb
    simp only [hcb, Bool.not_true, Bool.false_eq_true, if_false, if_true, hc]

theorem Inv.act {s : St} (h : Inv s) (h1 : s.pc ≠ .start) (h2 : s.pc ≠ .ret) : Inv (act s) := by
  have hok := h.okk h1 h2
  have hno : ¬ Over s := fun x => h2 x.1
  obtain ⟨l1, l2, l3, l4, l5, l6⟩ := h.live hok hno
  have hc := h.cnt
  have hb := h.bad
  have hp := h.parts
  have hn := h.nout
  have hsn := h.snt
  unfold Submit.act
  cases hpc : s.pc with
  | start => exact absurd hpc h1
  | ret => exact absurd hpc h2
  | one =>
    unfold PartsOk at hp
    rw [hpc] at hp hc
    simp only [mine, Nat.add_zero] at hc
    rw [hp.1] at hn
    simp only [List.length_nil, Nat.add_eq_zero_iff, List.length_eq_zero_iff] at hn
    have hsent : s.sent = [] := by rw [hp.1] at hsn; simpa using hsn
    have hrest : s.kind = .flush ∨ ∃ w a, s.kind = .page w a := by
      have := hp.2
      cases hk : s.kind with
      | flush => exact Or.inl rfl
      | page w a => exact Or.inr ⟨w, a, rfl⟩
      | discard a n => rw [hk] at this; cases this
      | zeros a n => rw [hk] at this; cases this
    rcases hrest with hk | ⟨w, a, hk⟩
    · simp only [hk]
      constructor <;> simp [forward, hb, l1, l2, l3, l4, l5, l6, hok, mine, hc, h.err, PartsOk, hk, hp.1, hn.1, hn.2,
        hsent, Over, isPage, isZeros]
    · simp only [hk]
      have hw := h.wr a
      constructor <;> simp [forward, hb, l1, l2, l3, l4, l5, l6, hok, mine, hc, h.err, PartsOk, hk, hp.1, hn.1, hn.2,
        hsent, Over, isPage, isZeros]
      intro hw'
      subst hw'
      have := (h.wr a hk hok).1
      exact this
  | loop a n =>
    unfold PartsOk at hp
    rw [hpc] at hp hc
    simp only [mine] at hc
    obtain ⟨x, y, hr, ht, hy⟩ := hp
    have hnp : isPage s.kind = false := by
      cases hk : s.kind <;> first | rfl | (rw [hk] at hr; cases hr)
    have hkp : ∀ w b, s.kind ≠ .page w b := fun w b e => by rw [e] at hnp; cases hnp
    simp only
    by_cases hz : n = 0
    · rw [if_pos hz]
      have hpk : (match s.kind with
          | .flush => s.parts = [(0, 0)]
          | .page _ a => s.parts = [(a, 4096)]
          | .discard a n => Tile maxDiscard a s.parts (a + n)
          | .zeros a n => Tile maxZeros a s.parts (a + n)) := by
        subst hz
        cases hk : s.kind with
        | flush => rw [hk] at hr; cases hr
        | page w b => rw [hk] at hr; cases hr
        | discard b m =>
          rw [hk] at hr ht; simp only [range] at hr; cases hr
          simp only at *; rw [← hy]; exact ht
        | zeros b m =>
          rw [hk] at hr ht; simp only [range] at hr; cases hr
          simp only at *; rw [← hy]; exact ht
      by_cases hout : s.out = 0
      · rw [put_last l2 l1 (by omega) l6]
        cases hzs : isZeros s.kind
        · simp only [Bool.false_eq_true, if_false]
          exact {
            st := fun e => (by cases e)
            okk := fun _ e => absurd rfl e
            bad := hb
            cnt := by simp [mine, hout]
            err := h.err
            parts := fun _ => hpk
            nout := hn
            snt := hsn
            live := fun _ e => absurd ⟨rfl, hout⟩ e
            over := fun _ _ => (by
              show if isZeros s.kind = true then _ else _
              rw [if_neg (by rw [hzs]; simp)]
              exact ⟨l4, by simp [l3], rfl, rfl, rfl⟩)
            nok := fun e => (by rw [show s.ok = false from e] at hok; cases hok)
            wr := fun b e => absurd e (hkp _ _)
            rd := fun b e => absurd e (hkp _ _) }
        · simp only [if_true]
          exact {
            st := fun e => (by cases e)
            okk := fun _ e => absurd rfl e
            bad := hb
            cnt := by simp [mine, hout]
            err := h.err
            parts := fun _ => hpk
            nout := hn
            snt := hsn
            live := fun _ e => absurd ⟨rfl, hout⟩ e
            over := fun _ _ => (by
              show if isZeros s.kind = true then _ else _
              rw [if_pos hzs]
              exact ⟨rfl, l3, l1, l2⟩)
            nok := fun e => (by rw [show s.ok = false from e] at hok; cases hok)
            wr := fun b e => absurd e (hkp _ _)
            rd := fun b e => absurd e (hkp _ _) }
      · rw [put_more l2 (by omega)]
        exact {
          st := fun e => (by cases e)
          okk := fun _ e => absurd rfl e
          bad := hb
          cnt := by simp [mine, hc]
          err := h.err
          parts := fun _ => hpk
          nout := hn
          snt := hsn
          live := fun _ _ => ⟨l1, l2, l3, l4, l5, l6⟩
          over := fun _ e => absurd e.2 hout
          nok := fun e => (by rw [show s.ok = false from e] at hok; cases hok)
          wr := fun b e => absurd e (hkp _ _)
          rd := fun b e => absurd e (hkp _ _) }
    · rw [if_neg hz]
      rw [bytes_eq]
      have hl := lim_pos s.kind
      have hm0 : 0 < min n (lim s.kind) := by omega
      have hm1 : min n (lim s.kind) ≤ lim s.kind := Nat.min_le_right ..
      have hm2 : min n (lim s.kind) ≤ n := Nat.min_le_left ..
      generalize min n (lim s.kind) = m at *
      exact {
        st := fun e => (by cases e)
        okk := fun _ _ => hok
        bad := by simp [forward, hb, l2]
        cnt := by simp [forward, mine, hc]
        err := h.err
        parts := ⟨x, y, hr, ht.snoc hm0 hm1, by omega⟩
        nout := by simp [forward]; omega
        snt := by simp [forward]; omega
        live := fun _ _ => ⟨l1, l2, l3, l4, l5, l6⟩
        over := fun _ e => (by cases e.1)
        nok := fun e => (by rw [show s.ok = false from e] at hok; cases hok)
        wr := fun b e => absurd e (hkp _ _)
        rd := fun b e => absurd e (hkp _ _) }

theorem Inv.done {s : St} (h : Inv s) (ho : 0 < s.out) (e : Int) (v : Nat) : Inv (done s e v) := by
  have hns : s.pc ≠ .start := fun x => by have := (h.st x).2.1; omega
  have hok : s.ok = true := by
    cases hx : s.ok
    · by_cases hr : s.pc = .ret
      · have := (h.nok hx hr).1; omega
      · have := h.okk hns hr; rw [hx] at this; cases this
    · rfl
  have hno : ¬ Over s := fun x => by have := x.2; omega
  obtain ⟨l1, l2, l3, l4, l5, l6⟩ := h.live hok hno
  have hc := h.cnt
  have hb := h.bad
  have hp := h.parts
  have hn := h.nout
  have hsn := h.snt
  have he := h.err
  have hw := h.wr
  -- a page has one part, so it completes once
  have hpg : isPage s.kind = true → s.errs = [] ∧ s.out = 1 ∧ s.pc = .ret := by
    intro hk
    obtain ⟨w, a, hk⟩ : ∃ w a, s.kind = .page w a := by
      cases hx : s.kind with
      | page w a => exact ⟨w, a, rfl⟩
      | flush => rw [hx] at hk; cases hk
      | discard a n => rw [hx] at hk; cases hk
      | zeros a n => rw [hx] at hk; cases hk
    unfold PartsOk at hp
    cases hpc : s.pc with
    | start => exact absurd hpc hns
    | one => rw [hpc] at hp; rw [hp.1] at hn; simp at hn; omega
    | loop x n =>
      rw [hpc] at hp
      obtain ⟨_, _, hr, _⟩ := hp
      rw [hk] at hr; cases hr
    | ret =>
      rw [hpc] at hp
      have := hp hok
      rw [hk] at this
      simp only at this
      rw [this] at hn
      simp only [List.length_singleton] at hn
      exact ⟨List.length_eq_zero_iff.mp (by omega), by omega, rfl⟩
  -- the state before the reference is dropped
  obtain ⟨t, g, htd, hgot⟩ : ∃ (d g : Nat), Submit.done s e v = put { s with
      data := d, got := g, out := s.out - 1, errs := s.errs ++ [e], err := if s.err ≠ 0 then s.err else e } ∧
      ((∃ a, s.kind = .page false a) → e = 0 → d = g) ∧ ((∀ a, s.kind ≠ .page false a) → d = s.data) := by
    unfold Submit.done
    split
    · rename_i a hk
      split
      · exact ⟨v, v, rfl, fun _ _ => rfl, fun x => absurd hk (x a)⟩
      · rename_i hne
        exact ⟨s.data, s.got, rfl, fun _ x => absurd x hne, fun x => absurd hk (x a)⟩
    · rename_i hk
      exact ⟨s.data, s.got, rfl, fun ⟨a, x⟩ => absurd x (hk a), fun _ => rfl⟩
  have herr : (if s.err ≠ 0 then s.err else e) = firstErr (s.errs ++ [e]) := by rw [firstErr_snoc, ← he]
  rw [htd]
  generalize (if s.err ≠ 0 then s.err else e) = ne at herr
  by_cases hlast : s.cnt = 1
  · -- last reference
    have hpc : s.pc = .ret := by
      cases hpc : s.pc with
      | start => exact absurd hpc hns
      | ret => rfl
      | loop a n => rw [hpc] at hc; simp [mine] at hc; omega
      | one =>
        unfold PartsOk at hp
        rw [hpc] at hp; rw [hp.1] at hn; simp at hn; omega
    have ho1 : s.out = 1 := by rw [hpc] at hc; simp [mine] at hc; omega
    rw [put_last (s := { s with data := t, got := g, out := s.out - 1, errs := s.errs ++ [e], err := ne })
      l2 l1 hlast l6]
    have hpp : PartsOk s := hp
    unfold PartsOk at hpp
    rw [hpc] at hpp
    simp only
    cases hzs : isZeros s.kind
    · simp only [Bool.false_eq_true, if_false]
      exact {
        st := fun x => absurd x hns
        okk := fun _ x => absurd hpc x
        bad := hb
        cnt := by simp [hpc, mine, ho1]
        err := herr
        parts := (by unfold PartsOk; simp only [hpc]; exact hpp)
        nout := by simp; omega
        snt := hsn
        live := fun _ x => absurd ⟨hpc, by simp [ho1]⟩ x
        over := fun _ _ => (by
          show if isZeros s.kind = true then _ else _
          rw [if_neg (by rw [hzs]; simp)]
          exact ⟨l4, by simp [l3], rfl, rfl, rfl⟩)
        nok := fun x => (by rw [show s.ok = false from x] at hok; cases hok)
        wr := fun b hk _ => (by
          have hk : s.kind = .page true b := hk
          have := hw b hk hok
          have hd := hgot.2 (fun a x => by rw [hk] at x; cases x)
          simp only [hk, hd]
          exact this)
        rd := fun b hk _ hx => (by
          have hk : s.kind = .page false b := hk
          have he0 := (hpg (by rw [hk]; rfl)).1
          have hx : s.errs ++ [e] = [0] := hx
          rw [he0] at hx
          simp only [List.nil_append, List.cons.injEq, and_true] at hx
          have := hgot.1 ⟨b, hk⟩ hx
          simp only [hk]
          exact ⟨this, fun _ => this⟩) }
    · simp only [if_true]
      have hkp : ∀ w b, s.kind ≠ .page w b := fun w b x => by rw [x] at hzs; cases hzs
      exact {
        st := fun x => absurd x hns
        okk := fun _ x => absurd hpc x
        bad := hb
        cnt := by simp [hpc, mine, ho1]
        err := herr
        parts := (by unfold PartsOk; simp only [hpc]; exact hpp)
        nout := by simp; omega
        snt := hsn
        live := fun _ x => absurd ⟨hpc, by simp [ho1]⟩ x
        over := fun _ _ => (by
          show if isZeros s.kind = true then _ else _
          rw [if_pos hzs]
          exact ⟨rfl, l3, l1, l2⟩)
        nok := fun x => (by rw [show s.ok = false from x] at hok; cases hok)
        wr := fun b x => absurd x (hkp _ _)
        rd := fun b x => absurd x (hkp _ _) }
  · have hge : 1 < s.cnt := by omega
    rw [put_more (s := { s with data := t, got := g, out := s.out - 1, errs := s.errs ++ [e], err := ne }) l2 hge]
    have hkp : ∀ w b, s.kind ≠ .page w b := by
      intro w b x
      have := hpg (by rw [x]; rfl)
      rw [this.2.2] at hc
      simp [mine] at hc
      omega
    exact {
      st := fun x => absurd x hns
      okk := h.okk
      bad := hb
      cnt := by simp; omega
      err := herr
      parts := hp
      nout := by simp; omega
      snt := hsn
      live := fun _ _ => ⟨l1, l2, l3, l4, l5, l6⟩
      over := fun _ x => (by
        have h1 : s.pc = .ret := x.1
        have h2 : s.out - 1 = 0 := x.2
        rw [h1] at hc
        simp [mine] at hc
        omega)
      nok := fun x => (by rw [show s.ok = false from x] at hok; cases hok)
      wr := fun b x => absurd x (hkp _ _)
      rd := fun b x => absurd x (hkp _ _) }

theorem Inv.step {s t : St} (h : Inv s) (hst : Step s t) : Inv t := by
  cases hst with
  | submit i h1 => exact h.submit h1 i
  | act _ h1 h2 => exact h.act h1 h2
  | done e v _ h1 => exact h.done h1 e v

theorem inv_reach {s : St} (h : Reach Init Step s) : Inv s :=
  Reach.inv (P := Inv) (fun _ h => inv_init h) (fun _ _ h hst => h.step hst) s h

end Verif.Submit
