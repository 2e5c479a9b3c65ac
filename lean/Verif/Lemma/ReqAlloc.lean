import Verif.Model.ReqAlloc
import Verif.Lemma.Common

/-! The account of what requests hold, for `Verif.Props.ReqAlloc`. -/

namespace Verif.ReqAlloc

open Verif.Mpool

/-- How many requests are live for which `f` holds. -/
def nLive (s : St) (f : Rq → Bool) : Nat := s.live.countP (fun o => o.any f)

/-- How many calls are under way for which `f` holds. -/
def nPend (s : St) (f : Pend → Bool) : Nat := s.pend.countP (fun o => o.any f)

/-- What is held beyond the live requests and the calls under way. -/
structure Hold where
  md : Nat
  dc : Nat
  q : Nat → Nat
  v : Nat → Nat
  pool : Nat → Nat
  heap : Nat

/-- A request as the functions make it. -/
structure Good (p : Pool) (r : Rq) : Prop where
  refs : 1 ≤ r.refs
  heap : r.isMngt = true ↔ r.org = none
  pool : ∀ i, r.org = some i → p.order r.alloc = some i
  own : r.isMngt = true → r.map ≠ .own ∧ (r.map = .null → r.lines = 0)
  d2c : r.d2c = true → r.isMngt = false

/-- Whether a request holds a unit of `refcnt.metadata`. -/
def Rq.onMd (r : Rq) : Bool := !r.d2c && (!r.isMngt || r.cleaner)

/-- All counts are those of the live requests, the calls under way and `h`. -/
structure Bal (p : Pool) (s : St) (h : Hold) : Prop where
  md : s.md = nLive s Rq.onMd + nPend s (fun c => c.stage = .cached) + h.md
  dc : s.dc = nLive s (fun r => r.d2c) + nPend s (fun c => c.stage = .direct) + s.leaked + h.dc
  q : ∀ q, s.qref q = nLive s (fun r => r.queue = q) + nPend s (fun c => c.queue = q) + h.q q
  v : ∀ v, s.vref v = nLive s (fun r => r.vol = some v) + nPend s (fun c => c.vol = some v) + h.v v
  pool : ∀ i, s.pool i = nLive s (fun r => r.org = some i) + h.pool i
  heap : s.heap = nLive s (fun r => r.org = none) + nLive s (fun r => r.map = .own) + h.heap
  good : ∀ (k : Nat) (r : Rq), s.live[k]? = some (some r) → Good p r

variable {p : Pool} {s : St} {h : Hold}

/-- One more reference to a queue. -/
def Hold.addQ (h : Hold) (q : Nat) : Hold := { h with q := upd h.q q (h.q q + 1) }
/-- One more reference to a volume. -/
def Hold.addV (h : Hold) : Option Nat → Hold
  | none => h
  | some v => { h with v := upd h.v v (h.v v + 1) }
/-- One more object of a pool. -/
def Hold.addP (h : Hold) (i : Nat) : Hold := { h with pool := upd h.pool i (h.pool i + 1) }
/-- One more block. -/
def Hold.addH (h : Hold) : Hold := { h with heap := h.heap + 1 }
/-- One more unit of `refcnt.metadata`. -/
def Hold.addM (h : Hold) : Hold := { h with md := h.md + 1 }
/-- One more unit of `refcnt.d2c`. -/
def Hold.addD (h : Hold) : Hold := { h with dc := h.dc + 1 }

theorem upd_same (f : Nat → Nat) (i v : Nat) : upd f i v i = v := by simp [upd]
theorem upd_ne {f : Nat → Nat} {i j v : Nat} (h : j ≠ i) : upd f i v j = f j := by simp [upd, h]
theorem upd_val (f : Nat → Nat) (i v j : Nat) : upd f i v j = if j = i then v else f j := rfl

theorem bal_qget (b : Bal p s h) (q : Nat) : Bal p (s.qget q) (h.addQ q) := by
  refine ⟨b.md, b.dc, ?_, b.v, b.pool, b.heap, b.good⟩
  intro q'
  have e := b.q q'
  show upd s.qref q (s.qref q + 1) q' = nLive s _ + nPend s _ + upd h.q q (h.q q + 1) q'
  rw [upd_val, upd_val]
  split
  · rename_i e'; subst e'; omega
  · exact e

theorem bal_qput {q : Nat} (b : Bal p s (h.addQ q)) : Bal p (s.qput q) h ∧ (s.qput q).bug = s.bug := by
  have h0 : s.qref q ≠ 0 := by
    have e := b.q q
    have : (h.addQ q).q q = h.q q + 1 := upd_same ..
    omega
  unfold St.qput
  rw [if_neg h0]
  refine ⟨⟨b.md, b.dc, ?_, b.v, b.pool, b.heap, b.good⟩, rfl⟩
  intro q'
  have e := b.q q'
  show upd s.qref q (s.qref q - 1) q' = nLive s _ + nPend s _ + h.q q'
  have e' : (h.addQ q).q q' = if q' = q then h.q q + 1 else h.q q' := rfl
  rw [e'] at e
  rw [upd_val]
  split
  · rename_i e2; subst e2; rw [if_pos rfl] at e; omega
  · rename_i e2; rw [if_neg e2] at e; exact e

theorem bal_vinc (b : Bal p s h) (o : Option Nat) : Bal p (s.vInc o) (h.addV o) := by
  cases o with
  | none => exact b
  | some v =>
    refine ⟨b.md, b.dc, b.q, ?_, b.pool, b.heap, b.good⟩
    intro v'
    have e := b.v v'
    show upd s.vref v (s.vref v + 1) v' = nLive s _ + nPend s _ + upd h.v v (h.v v + 1) v'
    rw [upd_val, upd_val]
    split
    · rename_i e'; subst e'; omega
    · exact e

theorem bal_vdec {o : Option Nat} (b : Bal p s (h.addV o)) : Bal p (s.vDec o) h ∧ (s.vDec o).bug = s.bug := by
  cases o with
  | none => exact ⟨b, rfl⟩
  | some v =>
    have h0 : s.vref v ≠ 0 := by
      have e := b.v v
      have : (h.addV (some v)).v v = h.v v + 1 := upd_same ..
      omega
    unfold St.vDec
    dsimp only
    rw [if_neg h0]
    refine ⟨⟨b.md, b.dc, b.q, ?_, b.pool, b.heap, b.good⟩, rfl⟩
    intro v'
    have e := b.v v'
    show upd s.vref v (s.vref v - 1) v' = nLive s _ + nPend s _ + h.v v'
    have e' : (h.addV (some v)).v v' = if v' = v then h.v v + 1 else h.v v' := rfl
    rw [e'] at e
    rw [upd_val]
    split
    · rename_i e2; subst e2; rw [if_pos rfl] at e; omega
    · rename_i e2; rw [if_neg e2] at e; exact e

theorem bal_mddec (b : Bal p s h.addM) : Bal p s.mdDec h ∧ s.mdDec.bug = s.bug := by
  have e := b.md
  have e' : h.addM.md = h.md + 1 := rfl
  unfold St.mdDec
  rw [if_neg (by omega)]
  refine ⟨⟨?_, b.dc, b.q, b.v, b.pool, b.heap, b.good⟩, rfl⟩
  show s.md - 1 = nLive s _ + nPend s _ + h.md
  omega

theorem bal_dcdec (b : Bal p s h.addD) : Bal p s.dcDec h ∧ s.dcDec.bug = s.bug := by
  have e := b.dc
  have e' : h.addD.dc = h.dc + 1 := rfl
  unfold St.dcDec
  rw [if_neg (by omega)]
  refine ⟨⟨b.md, ?_, b.q, b.v, b.pool, b.heap, b.good⟩, rfl⟩
  show s.dc - 1 = nLive s _ + nPend s _ + s.leaked + h.dc
  omega

theorem bal_hfree (b : Bal p s h.addH) : Bal p s.hfree h ∧ s.hfree.bug = s.bug := by
  have e := b.heap
  have e' : h.addH.heap = h.heap + 1 := rfl
  unfold St.hfree
  rw [if_neg (by omega)]
  refine ⟨⟨b.md, b.dc, b.q, b.v, b.pool, ?_, b.good⟩, rfl⟩
  show s.heap - 1 = nLive s _ + nLive s _ + h.heap
  omega

theorem bal_ptake (b : Bal p s h) (i : Nat) : Bal p (s.ptake i) (h.addP i) := by
  refine ⟨b.md, b.dc, b.q, b.v, ?_, b.heap, b.good⟩
  intro j
  have e := b.pool j
  show upd s.pool i (s.pool i + 1) j = nLive s _ + upd h.pool i (h.pool i + 1) j
  rw [upd_val, upd_val]
  split
  · rename_i e'; subst e'; omega
  · exact e

theorem bal_pdel {i n : Nat} (b : Bal p s (h.addP i)) (hn : p.order n = some i) :
    Bal p (s.pdel p n) h ∧ (s.pdel p n).bug = s.bug := by
  have h0 : s.pool i ≠ 0 := by
    have e := b.pool i
    have : (h.addP i).pool i = h.pool i + 1 := upd_same ..
    omega
  unfold St.pdel
  rw [hn]
  dsimp only
  rw [if_neg h0]
  refine ⟨⟨b.md, b.dc, b.q, b.v, ?_, b.heap, b.good⟩, rfl⟩
  intro j
  have e := b.pool j
  show upd s.pool i (s.pool i - 1) j = nLive s _ + h.pool j
  have e' : (h.addP i).pool j = if j = i then h.pool i + 1 else h.pool j := rfl
  rw [e'] at e
  rw [upd_val]
  split
  · rename_i e2; subst e2; rw [if_pos rfl] at e; omega
  · rename_i e2; rw [if_neg e2] at e; exact e

/-- One more unit of a counter, if `c`. -/
def b2n (c : Bool) : Nat := if c then 1 else 0

/-- What a request holds. -/
def Hold.addR (h : Hold) (r : Rq) : Hold :=
  { md := h.md + b2n r.onMd
    dc := h.dc + b2n r.d2c
    q := fun q => h.q q + b2n (r.queue = q)
    v := fun v => h.v v + b2n (r.vol = some v)
    pool := fun i => h.pool i + b2n (r.org = some i)
    heap := h.heap + b2n (r.org = none) + b2n (r.map = .own) }

/-- What a call under way holds. -/
def Hold.addC (h : Hold) (c : Pend) : Hold :=
  { h with
    md := h.md + b2n (c.stage = .cached)
    dc := h.dc + b2n (c.stage = .direct)
    q := fun q => h.q q + b2n (c.queue = q)
    v := fun v => h.v v + b2n (c.vol = some v) }

theorem nLive_push (s : St) (r : Rq) (f : Rq → Bool) : nLive (s.push r) f = nLive s f + b2n (f r) := by
  unfold nLive St.push b2n
  rw [List.countP_append, List.countP_singleton]
  simp

theorem nLive_set {k : Nat} {r : Rq} (hr : s.live[k]? = some (some r)) (f : Rq → Bool) :
    nLive { s with live := s.live.set k none } f + b2n (f r) = nLive s f := by
  have := countP_set (fun o : Option Rq => o.any f) s.live k none (some r) hr
  simpa [nLive, b2n] using this

theorem nLive_mod {k : Nat} {r r' : Rq} (hr : s.live[k]? = some (some r)) (f : Rq → Bool) :
    nLive { s with live := s.live.set k (some r') } f + b2n (f r) = nLive s f + b2n (f r') := by
  have := countP_set (fun o : Option Rq => o.any f) s.live k (some r') (some r) hr
  simpa [nLive, b2n] using this

theorem nPend_push (s : St) (c : Pend) (f : Pend → Bool) :
    nPend { s with pend := s.pend ++ [some c] } f = nPend s f + b2n (f c) := by
  unfold nPend b2n
  dsimp only
  rw [List.countP_append, List.countP_singleton]
  simp

theorem nPend_set {k : Nat} {c : Pend} (hc : s.pend[k]? = some (some c)) (f : Pend → Bool) :
    nPend (s.over k) f + b2n (f c) = nPend s f := by
  have := countP_set (fun o : Option Pend => o.any f) s.pend k none (some c) hc
  simpa [nPend, b2n, St.over] using this

theorem nPend_mod {k : Nat} {c c' : Pend} (hc : s.pend[k]? = some (some c)) (f : Pend → Bool) :
    nPend { s with pend := s.pend.set k (some c') } f + b2n (f c) = nPend s f + b2n (f c') := by
  have := countP_set (fun o : Option Pend => o.any f) s.pend k (some c') (some c) hc
  simpa [nPend, b2n] using this

theorem bal_push {r : Rq} (b : Bal p s (h.addR r)) (hg : Good p r) : Bal p (s.push r) h := by
  obtain ⟨b1, b2, b3, b4, b5, b6, b7⟩ := b
  refine ⟨?_, ?_, ?_, ?_, ?_, ?_, ?_⟩
  · rw [nLive_push]; show s.md = _ + nPend s _ + _; simp only [Hold.addR] at b1; omega
  · rw [nLive_push]; show s.dc = _ + nPend s _ + s.leaked + _; simp only [Hold.addR] at b2; omega
  · intro q; rw [nLive_push]; show s.qref q = _ + nPend s _ + _; have := b3 q; simp only [Hold.addR] at this; omega
  · intro q; rw [nLive_push]; show s.vref q = _ + nPend s _ + _; have := b4 q; simp only [Hold.addR] at this; omega
  · intro q; rw [nLive_push]; show s.pool q = _ + _; have := b5 q; simp only [Hold.addR] at this; omega
  · rw [nLive_push, nLive_push]; show s.heap = _ + _; simp only [Hold.addR] at b6; omega
  · intro k x hx
    unfold St.push at hx
    dsimp only at hx
    rw [List.getElem?_append] at hx
    split at hx
    · exact b7 k x hx
    · cases hk : k - s.live.length with
      | zero => rw [hk] at hx; simp at hx; rw [← hx]; exact hg
      | succ n => rw [hk] at hx; simp at hx

theorem bal_pop {k : Nat} {r : Rq} (b : Bal p s h) (hr : s.live[k]? = some (some r)) :
    Bal p { s with live := s.live.set k none } (h.addR r) := by
  obtain ⟨b1, b2, b3, b4, b5, b6, b7⟩ := b
  have hf := fun f => nLive_set (s := s) hr f
  refine ⟨?_, ?_, ?_, ?_, ?_, ?_, ?_⟩
  · have := hf Rq.onMd
    show s.md = _ + nPend s _ + _; simp only [Hold.addR]; omega
  · have := hf (fun r => r.d2c)
    show s.dc = _ + nPend s _ + s.leaked + _; simp only [Hold.addR]; omega
  · intro q; have := hf (fun r => r.queue = q); have e := b3 q
    show s.qref q = _ + nPend s _ + _; simp only [Hold.addR]; omega
  · intro q; have := hf (fun r => r.vol = some q); have e := b4 q
    show s.vref q = _ + nPend s _ + _; simp only [Hold.addR]; omega
  · intro q; have := hf (fun r => r.org = some q); have e := b5 q
    show s.pool q = _ + _; simp only [Hold.addR]; omega
  · have e1 := hf (fun r => r.org = none)
    have e2 := hf (fun r => r.map = .own)
    show s.heap = _ + _ + _; simp only [Hold.addR]; omega
  · intro j x hx
    dsimp only at hx
    rw [List.getElem?_set] at hx
    split at hx
    · split at hx <;> simp at hx
    · exact b7 j x hx

theorem bal_mod {k : Nat} {r r' : Rq} (b : Bal p s (h.addR r')) (hr : s.live[k]? = some (some r))
    (hg : Good p r') : Bal p { s with live := s.live.set k (some r') } (h.addR r) := by
  obtain ⟨b1, b2, b3, b4, b5, b6, b7⟩ := b
  have hf := fun f => nLive_mod (s := s) (r' := r') hr f
  refine ⟨?_, ?_, ?_, ?_, ?_, ?_, ?_⟩
  · have := hf Rq.onMd
    show s.md = _ + nPend s _ + _; simp only [Hold.addR] at *; omega
  · have := hf (fun r => r.d2c)
    show s.dc = _ + nPend s _ + s.leaked + _; simp only [Hold.addR] at *; omega
  · intro q; have := hf (fun r => r.queue = q); have e := b3 q
    show s.qref q = _ + nPend s _ + _; simp only [Hold.addR] at *; omega
  · intro q; have := hf (fun r => r.vol = some q); have e := b4 q
    show s.vref q = _ + nPend s _ + _; simp only [Hold.addR] at *; omega
  · intro q; have := hf (fun r => r.org = some q); have e := b5 q
    show s.pool q = _ + _; simp only [Hold.addR] at *; omega
  · have e1 := hf (fun r => r.org = none)
    have e2 := hf (fun r => r.map = .own)
    show s.heap = _ + _ + _; simp only [Hold.addR] at *; omega
  · intro j x hx
    dsimp only at hx
    rw [List.getElem?_set] at hx
    split at hx
    · split at hx
      · simp at hx; rw [← hx]; exact hg
      · simp at hx
    · exact b7 j x hx

theorem bal_cpush {c : Pend} (b : Bal p s (h.addC c)) : Bal p { s with pend := s.pend ++ [some c] } h := by
  obtain ⟨b1, b2, b3, b4, b5, b6, b7⟩ := b
  refine ⟨?_, ?_, ?_, ?_, b5, b6, b7⟩
  · rw [nPend_push]; show s.md = nLive s _ + _ + _; simp only [Hold.addC] at b1; omega
  · rw [nPend_push]; show s.dc = nLive s _ + _ + s.leaked + _; simp only [Hold.addC] at b2; omega
  · intro q; rw [nPend_push]; show s.qref q = nLive s _ + _ + _; have := b3 q; simp only [Hold.addC] at this; omega
  · intro q; rw [nPend_push]; show s.vref q = nLive s _ + _ + _; have := b4 q; simp only [Hold.addC] at this; omega

theorem bal_cpop {k : Nat} {c : Pend} (b : Bal p s h) (hc : s.pend[k]? = some (some c)) :
    Bal p (s.over k) (h.addC c) := by
  obtain ⟨b1, b2, b3, b4, b5, b6, b7⟩ := b
  have hf := fun f => nPend_set (s := s) hc f
  refine ⟨?_, ?_, ?_, ?_, b5, b6, b7⟩
  · have := hf (fun c => c.stage = .cached)
    show s.md = nLive s _ + _ + _; simp only [Hold.addC]; omega
  · have := hf (fun c => c.stage = .direct)
    show s.dc = nLive s _ + _ + s.leaked + _; simp only [Hold.addC]; omega
  · intro q; have := hf (fun r => r.queue = q); have e := b3 q
    show s.qref q = nLive s _ + _ + _; simp only [Hold.addC]; omega
  · intro q; have := hf (fun r => r.vol = some q); have e := b4 q
    show s.vref q = nLive s _ + _ + _; simp only [Hold.addC]; omega

/-- Two holdings with the same counts. -/
theorem bal_congr {h' : Hold} (b : Bal p s h) (h1 : h.md = h'.md) (h2 : h.dc = h'.dc) (h3 : ∀ q, h.q q = h'.q q)
    (h4 : ∀ q, h.v q = h'.v q) (h5 : ∀ q, h.pool q = h'.pool q) (h6 : h.heap = h'.heap) : Bal p s h' :=
  ⟨h1 ▸ b.md, h2 ▸ b.dc, fun q => h3 q ▸ b.q q, fun q => h4 q ▸ b.v q, fun q => h5 q ▸ b.pool q, h6 ▸ b.heap, b.good⟩

theorem pnew_order {n i : Nat} {ok : Bool} (e : pnew p n ok = some i) : p.order n = some i := by
  unfold pnew at e
  split at e
  · exact e
  · cases e

theorem b2n_eq (a b : Nat) : b2n (decide (a = b)) = if b = a then 1 else 0 := by
  unfold b2n
  by_cases h : a = b
  · simp [h]
  · simp [h, Ne.symm h]

theorem b2n_some (a b : Nat) : b2n (decide (some a = some b)) = if b = a then 1 else 0 := by
  rw [← b2n_eq]; simp

theorem b2n_none (b : Nat) : b2n (decide ((none : Option Nat) = some b)) = 0 := by simp [b2n]

theorem addV_val (h : Hold) (o : Option Nat) (v : Nat) : (h.addV o).v v = h.v v + b2n (o = some v) := by
  cases o with
  | none => rw [b2n_none]; rfl
  | some w =>
    rw [b2n_some]
    show upd h.v w (h.v w + 1) v = _
    rw [upd_val]
    split
    · rename_i e; subst e; rfl
    · rfl

theorem addV_md (h : Hold) (o : Option Nat) : (h.addV o).md = h.md := by cases o <;> rfl
theorem addV_dc (h : Hold) (o : Option Nat) : (h.addV o).dc = h.dc := by cases o <;> rfl
theorem addV_q (h : Hold) (o : Option Nat) : (h.addV o).q = h.q := by cases o <;> rfl
theorem addV_pool (h : Hold) (o : Option Nat) : (h.addV o).pool = h.pool := by cases o <;> rfl
theorem addV_heap (h : Hold) (o : Option Nat) : (h.addV o).heap = h.heap := by cases o <;> rfl

theorem addQ_val (h : Hold) (a b : Nat) : (h.addQ a).q b = h.q b + b2n (a = b) := by
  rw [b2n_eq]
  show upd h.q a (h.q a + 1) b = _
  rw [upd_val]
  split
  · rename_i e; subst e; rfl
  · rfl

theorem addP_val (h : Hold) (a b : Nat) : (h.addP a).pool b = h.pool b + b2n (some a = some b) := by
  rw [b2n_some]
  show upd h.pool a (h.pool a + 1) b = _
  rw [upd_val]
  split
  · rename_i e; subst e; rfl
  · rfl

/-- The last reference gives back all but the volume. -/
theorem bal_put_last {k : Nat} {r : Rq} (b : Bal p s h) (hr : s.live[k]? = some (some r)) (h1 : r.refs = 1)
    (w : Option Nat) :
    Bal p (s.put p k { r with vol := w }) (h.addV r.vol) ∧ (s.put p k { r with vol := w }).bug = s.bug := by
  have hg := b.good k r hr
  have b1 := bal_pop b hr
  unfold St.put
  dsimp only
  rw [if_neg (by omega), if_neg (by simp [h1])]
  generalize ht : ({ s with live := s.live.set k none } : St) = t at b1 ⊢
  have hbug : t.bug = s.bug := by rw [← ht]
  rw [← hbug]
  clear ht hbug b hr
  generalize hH : h.addV r.vol = H
  have hHv : ∀ v, H.v v = h.v v + b2n (r.vol = some v) := fun v => by rw [← hH]; exact addV_val ..
  have hHm : H.md = h.md := by rw [← hH]; exact addV_md ..
  have hHd : H.dc = h.dc := by rw [← hH]; exact addV_dc ..
  have hHq : H.q = h.q := by rw [← hH]; exact addV_q ..
  have hHp : H.pool = h.pool := by rw [← hH]; exact addV_pool ..
  have hHh : H.heap = h.heap := by rw [← hH]; exact addV_heap ..
  -- what is left after the counters of the cache
  have step1 : ∀ (c : Hold), c.md = H.md → c.dc = H.dc → (∀ q, c.q q = H.q q + b2n (r.queue = q)) →
      (∀ v, c.v v = H.v v) → (∀ i, c.pool i = H.pool i + b2n (r.org = some i)) →
      c.heap = H.heap + b2n (r.org = none) + b2n (r.map = .own) →
      Bal p (if r.d2c then t.dcDec else if !r.isMngt || r.cleaner then t.mdDec else t) c ∧
      (if r.d2c then t.dcDec else if !r.isMngt || r.cleaner then t.mdDec else t).bug = t.bug := by
    intro c c1 c2 c3 c4 c5 c6
    by_cases hd : r.d2c = true
    · rw [if_pos hd]
      apply bal_dcdec
      refine bal_congr b1 ?_ ?_ ?_ ?_ ?_ ?_
      · show h.md + b2n r.onMd = c.md
        have : b2n r.onMd = 0 := by simp [b2n, Rq.onMd, hd]
        omega
      · show h.dc + b2n r.d2c = c.dc + 1
        rw [hd]; show h.dc + 1 = _; omega
      · intro q; rw [show h.addR r = h.addR r from rfl]; show h.q q + b2n (r.queue = q) = c.q q; rw [c3, hHq]
      · intro v; show h.v v + b2n (r.vol = some v) = c.v v; rw [c4, hHv]
      · intro i; show h.pool i + b2n (r.org = some i) = c.pool i; rw [c5, hHp]
      · show h.heap + b2n (r.org = none) + b2n (r.map = .own) = c.heap; rw [c6, hHh]
    · rw [if_neg hd]
      have hd' : r.d2c = false := by simpa using hd
      by_cases hm : (!r.isMngt || r.cleaner) = true
      · rw [if_pos hm]
        apply bal_mddec
        refine bal_congr b1 ?_ ?_ ?_ ?_ ?_ ?_
        · show h.md + b2n r.onMd = c.md + 1
          have : r.onMd = true := by unfold Rq.onMd; rw [hd', hm]; rfl
          rw [this]; show h.md + 1 = _; omega
        · show h.dc + b2n r.d2c = c.dc
          rw [hd']; show h.dc + 0 = _; omega
        · intro q; show h.q q + b2n (r.queue = q) = c.q q; rw [c3, hHq]
        · intro v; show h.v v + b2n (r.vol = some v) = c.v v; rw [c4, hHv]
        · intro i; show h.pool i + b2n (r.org = some i) = c.pool i; rw [c5, hHp]
        · show h.heap + b2n (r.org = none) + b2n (r.map = .own) = c.heap; rw [c6, hHh]
      · rw [if_neg hm]
        refine ⟨bal_congr b1 ?_ ?_ ?_ ?_ ?_ ?_, rfl⟩
        · show h.md + b2n r.onMd = c.md
          have : r.onMd = false := by
            unfold Rq.onMd; rw [hd']
            have : (!r.isMngt || r.cleaner) = false := by simpa using hm
            rw [this]; rfl
          rw [this]; show h.md + 0 = _; omega
        · show h.dc + b2n r.d2c = c.dc
          rw [hd']; show h.dc + 0 = _; omega
        · intro q; show h.q q + b2n (r.queue = q) = c.q q; rw [c3, hHq]
        · intro v; show h.v v + b2n (r.vol = some v) = c.v v; rw [c4, hHv]
        · intro i; show h.pool i + b2n (r.org = some i) = c.pool i; rw [c5, hHp]
        · show h.heap + b2n (r.org = none) + b2n (r.map = .own) = c.heap; rw [c6, hHh]
  generalize hu : (if r.d2c then t.dcDec else if !r.isMngt || r.cleaner then t.mdDec else t) = u at step1
  by_cases hi : r.isMngt = true
  · rw [if_pos hi]
    have ho := hg.heap.1 hi
    have hw := (hg.own hi).1
    obtain ⟨b2, e2⟩ := step1 (H.addQ r.queue).addH rfl rfl (fun q => addQ_val ..) (fun _ => rfl)
      (fun i => by rw [ho, b2n_none]; rfl) (by rw [ho]; simp [b2n, hw]; rfl)
    obtain ⟨b3, e3⟩ := bal_hfree b2
    obtain ⟨b4, e4⟩ := bal_qput b3
    exact ⟨b4, by rw [e4, e3, e2]⟩
  · rw [if_neg hi]
    have hi' : r.isMngt = false := by simpa using hi
    obtain ⟨i, ho⟩ : ∃ i, r.org = some i := by
      cases he : r.org with
      | none => exact absurd (hg.heap.2 he) hi
      | some i => exact ⟨i, rfl⟩
    have hp := hg.pool i ho
    by_cases hw : r.map = .own
    · rw [if_pos hw]
      obtain ⟨b2, e2⟩ := step1 ((H.addQ r.queue).addP i).addH rfl rfl (fun q => addQ_val ..) (fun _ => rfl)
        (fun j => by rw [ho]; exact addP_val ..) (by rw [ho, hw]; simp [b2n]; rfl)
      obtain ⟨b3, e3⟩ := bal_hfree b2
      obtain ⟨b4, e4⟩ := bal_pdel b3 hp
      obtain ⟨b5, e5⟩ := bal_qput b4
      exact ⟨b5, by rw [e5, e4, e3, e2]⟩
    · rw [if_neg hw]
      obtain ⟨b2, e2⟩ := step1 ((H.addQ r.queue).addP i) rfl rfl (fun q => addQ_val ..) (fun _ => rfl)
        (fun j => by rw [ho]; exact addP_val ..) (by rw [ho]; simp [b2n, hw]; rfl)
      obtain ⟨b4, e4⟩ := bal_pdel b2 hp
      obtain ⟨b5, e5⟩ := bal_qput b4
      exact ⟨b5, by rw [e5, e4, e2]⟩

/-- A reference that is not the last. -/
theorem bal_put_more {k : Nat} {r : Rq} (b : Bal p s h) (hr : s.live[k]? = some (some r)) (h1 : 2 ≤ r.refs) :
    Bal p (s.put p k r) h ∧ (s.put p k r).bug = s.bug := by
  have hg := b.good k r hr
  unfold St.put
  rw [if_neg (by omega), if_pos (by omega)]
  refine ⟨?_, rfl⟩
  have hg' : Good p { r with refs := r.refs - 1 } :=
    ⟨by show 1 ≤ r.refs - 1; omega, hg.heap, hg.pool, hg.own, hg.d2c⟩
  have hf : ∀ f : Rq → Bool, f { r with refs := r.refs - 1 } = f r →
      nLive { s with live := s.live.set k (some { r with refs := r.refs - 1 }) } f = nLive s f := by
    intro f e
    have := nLive_mod (s := s) (r' := { r with refs := r.refs - 1 }) hr f
    rw [e] at this
    omega
  obtain ⟨b1, b2, b3, b4, b5, b6, b7⟩ := b
  refine ⟨?_, ?_, ?_, ?_, ?_, ?_, ?_⟩
  · rw [hf _ rfl]; exact b1
  · rw [hf _ rfl]; exact b2
  · intro q; rw [hf _ rfl]; exact b3 q
  · intro q; rw [hf _ rfl]; exact b4 q
  · intro q; rw [hf _ rfl]; exact b5 q
  · rw [hf _ rfl, hf _ rfl]; exact b6
  · intro j x hx
    dsimp only at hx
    rw [List.getElem?_set] at hx
    split at hx
    · split at hx
      · simp at hx; rw [← hx]; exact hg'
      · simp at hx
    · exact b7 j x hx

/-- `ocf_io_put`. -/
theorem bal_ioPut {k : Nat} {r : Rq} (b : Bal p s h) (hr : s.live[k]? = some (some r)) :
    Bal p (s.ioPut p k r) h ∧ (s.ioPut p k r).bug = s.bug := by
  unfold St.ioPut
  have key : Bal p (s.put p k { r with vol := none }) (h.addV r.vol) ∧ (s.put p k { r with vol := none }).bug = s.bug := by
    have hg := b.good k r hr
    by_cases h1 : r.refs = 1
    · exact bal_put_last b hr h1 none
    · have h2 := hg.refs
      unfold St.put
      dsimp only
      rw [if_neg (by omega), if_pos (by omega)]
      refine ⟨?_, rfl⟩
      have hg' : Good p { r with refs := r.refs - 1, vol := none } :=
        ⟨by show 1 ≤ r.refs - 1; omega, hg.heap, hg.pool, hg.own, hg.d2c⟩
      have hf : ∀ f : Rq → Bool, f { r with refs := r.refs - 1, vol := none } = f r →
          nLive { s with live := s.live.set k (some { r with refs := r.refs - 1, vol := none }) } f = nLive s f := by
        intro f e
        have := nLive_mod (s := s) (r' := { r with refs := r.refs - 1, vol := none }) hr f
        rw [e] at this
        omega
      obtain ⟨b1, b2, b3, b4, b5, b6, b7⟩ := b
      refine ⟨?_, ?_, ?_, ?_, ?_, ?_, ?_⟩
      · rw [hf _ rfl, addV_md]; exact b1
      · rw [hf _ rfl, addV_dc]; exact b2
      · intro q; rw [hf _ rfl, addV_q]; exact b3 q
      · intro q
        have e := nLive_mod (s := s) (r' := { r with refs := r.refs - 1, vol := none }) hr (fun r => r.vol = some q)
        rw [addV_val]
        have e2 := b4 q
        dsimp only at e
        rw [b2n_none] at e
        show s.vref q = _ + nPend s _ + _
        omega
      · intro q; rw [hf _ rfl, addV_pool]; exact b5 q
      · rw [hf _ rfl, hf _ rfl, addV_heap]; exact b6
      · intro j x hx
        dsimp only at hx
        rw [List.getElem?_set] at hx
        split at hx
        · split at hx
          · simp at hx; rw [← hx]; exact hg'
          · simp at hx
        · exact b7 j x hx
  obtain ⟨b2, e2⟩ := key
  obtain ⟨b3, e3⟩ := bal_vdec b2
  exact ⟨b3, by rw [e3, e2]⟩

/-- `ocf_req_put`. -/
theorem bal_put {k : Nat} {r : Rq} (b : Bal p s h) (hr : s.live[k]? = some (some r)) (hv : r.vol = none ∨ 2 ≤ r.refs) :
    Bal p (s.put p k r) h ∧ (s.put p k r).bug = s.bug := by
  have hg := b.good k r hr
  by_cases h1 : r.refs = 1
  · have hn : r.vol = none := by
      rcases hv with hv | hv
      · exact hv
      · omega
    have := bal_put_last b hr h1 r.vol
    have e : (h.addV r.vol) = h := by rw [hn]; rfl
    rw [e] at this
    exact this
  · exact bal_put_more b hr (by have := hg.refs; omega)

/-- The live requests after a new one is added. -/
theorem push_get (s : St) (r : Rq) : (s.push r).live[(s.push r).live.length - 1]? = some (some r) := by
  unfold St.push
  simp

/-- `ocf_req_alloc_map`. -/
theorem bal_map {k : Nat} {r : Rq} {ok : Bool} (b : Bal p s h) (hr : s.live[k]? = some (some r)) (hl : 0 < r.lines) :
    Bal p (s.allocMap k r ok).1 h ∧ (s.allocMap k r ok).1.bug = s.bug ∧
    ((s.allocMap k r ok).2 = false → (s.allocMap k r ok).1 = s) := by
  have hg := b.good k r hr
  unfold St.allocMap
  by_cases h1 : r.map ≠ .null
  · rw [if_pos h1]; exact ⟨b, rfl, fun h => by cases h⟩
  · rw [if_neg h1, if_neg (by omega)]
    have h1' : r.map = .null := by simpa using h1
    by_cases h2 : ok = true
    · rw [if_pos h2]
      refine ⟨?_, rfl, fun h => by cases h⟩
      have hg' : Good p { r with map := .own } :=
        ⟨hg.refs, hg.heap, hg.pool, fun h => by have := (hg.own h).2 h1'; omega, hg.d2c⟩
      have hf : ∀ f : Rq → Bool, f { r with map := .own } = f r →
          nLive { s with live := s.live.set k (some { r with map := .own }) } f = nLive s f := by
        intro f e
        have := nLive_mod (s := s) (r' := { r with map := .own }) hr f
        rw [e] at this
        omega
      have e6 := nLive_mod (s := s) (r' := { r with map := .own }) hr (fun r => r.map = .own)
      have e6' : b2n (decide (r.map = MapAt.own)) = 0 := by rw [h1']; rfl
      have e6'' : b2n (decide (({ r with map := .own } : Rq).map = MapAt.own)) = 1 := rfl
      rw [e6', e6''] at e6
      obtain ⟨b1, b2, b3, b4, b5, b6, b7⟩ := b
      refine ⟨?_, ?_, ?_, ?_, ?_, ?_, ?_⟩
      · exact (hf Rq.onMd rfl).symm ▸ b1
      · exact (hf (fun r => r.d2c) rfl).symm ▸ b2
      · intro q; exact (hf (fun r => r.queue = q) rfl).symm ▸ b3 q
      · intro q; exact (hf (fun r => r.vol = some q) rfl).symm ▸ b4 q
      · intro q; exact (hf (fun r => r.org = some q) rfl).symm ▸ b5 q
      · have e5 := hf (fun r => r.org = none) rfl
        show s.heap + 1 = nLive { s with live := s.live.set k (some { r with map := .own }) } _ +
          nLive { s with live := s.live.set k (some { r with map := .own }) } _ + _
        omega
      · intro j x hx
        dsimp only at hx
        rw [List.getElem?_set] at hx
        split at hx
        · split at hx
          · simp at hx; rw [← hx]; exact hg'
          · simp at hx
        · exact b7 j x hx
    · rw [if_neg h2]; exact ⟨b, rfl, fun _ => rfl⟩

/-- `ocf_req_new_mngt`. -/
theorem bal_newMngt (b : Bal p s h) (q : Nat) (ok : Bool) :
    Bal p (s.newMngt q ok) h ∧ (s.newMngt q ok).bug = s.bug := by
  unfold St.newMngt
  by_cases hok : ok = true
  · rw [if_pos hok]
    refine ⟨?_, rfl⟩
    have b1 : Bal p s.hget h.addH :=
      ⟨b.md, b.dc, b.q, b.v, b.pool, by have := b.heap; show s.heap + 1 = nLive s _ + nLive s _ + (h.heap + 1); omega,
        b.good⟩
    have b2 := bal_qget b1 q
    apply bal_push
    · refine bal_congr b2 rfl rfl ?_ ?_ ?_ rfl
      · intro q'; exact addQ_val ..
      · intro v; show h.v v = h.v v + b2n _; rw [b2n_none]; rfl
      · intro v; show h.pool v = h.pool v + b2n _; rw [b2n_none]; rfl
    · exact ⟨Nat.le_refl _, by simp, by simp, by simp, by simp⟩
  · rw [if_neg hok]; exact ⟨b, rfl⟩

/-- `ocf_req_new_cleaner`. -/
theorem bal_newCleaner (b : Bal p s h) (q : Nat) (mq : Bool) (n : Nat) (ok1 ok2 ok3 : Bool) (hn : 0 < n) :
    Bal p (s.newCleaner p q mq n ok1 ok2 ok3) h ∧ (s.newCleaner p q mq n ok1 ok2 ok3).bug = s.bug := by
  unfold St.newCleaner
  by_cases hf : s.mFrz = true
  · rw [if_pos hf]; exact ⟨b, rfl⟩
  rw [if_neg hf]
  dsimp only
  have b1 : Bal p s.mdInc h.addM :=
    ⟨by have := b.md; show s.md + 1 = nLive s _ + nPend s _ + (h.md + 1); omega, b.dc, b.q, b.v, b.pool, b.heap, b.good⟩
  have hbug : s.mdInc.bug = s.bug := rfl
  rw [← hbug]
  generalize s.mdInc = u at b1 ⊢
  by_cases hq : mq = true
  · subst hq
    rw [if_pos rfl]
    by_cases h1 : ok1 = true
    · rw [if_pos h1]
      refine ⟨?_, rfl⟩
      have b2 : Bal p u.hget h.addM.addH :=
        ⟨b1.md, b1.dc, b1.q, b1.v, b1.pool,
          by have := b1.heap; show u.heap + 1 = nLive u _ + nLive u _ + (h.addM.heap + 1); omega, b1.good⟩
      have b3 := bal_qget b2 q
      apply bal_push
      · refine bal_congr b3 rfl rfl ?_ ?_ ?_ rfl
        · intro q'; exact addQ_val ..
        · intro v; show h.v v = h.v v + b2n _; rw [b2n_none]; rfl
        · intro v; show h.pool v = h.pool v + b2n _; rw [b2n_none]; rfl
      · exact ⟨Nat.le_refl _, by simp, by simp, by simp, by simp⟩
    · rw [if_neg h1]; exact bal_mddec b1
  · rw [if_neg hq]
    have hq' : mq = false := by simpa using hq
    subst hq'
    cases e1 : pnew p n ok1 with
    | some i =>
      dsimp only
      refine ⟨?_, rfl⟩
      have b3 := bal_qget (bal_ptake b1 i) q
      apply bal_push
      · refine bal_congr b3 rfl rfl ?_ ?_ ?_ rfl
        · intro q'; exact addQ_val ..
        · intro v; show h.v v = h.v v + b2n _; rw [b2n_none]; rfl
        · intro v; exact addP_val ..
      · refine ⟨Nat.le_refl _, by simp, ?_, by simp, by simp⟩
        intro j hj
        have : i = j := by simpa using hj
        subst this
        exact pnew_order e1
    | none =>
      dsimp only
      cases e2 : pnew p 1 ok2 with
      | none => exact bal_mddec b1
      | some i =>
        dsimp only
        have b3 := bal_qget (bal_ptake b1 i) q
        generalize hr : Rq.mk q none 1 false false true 1 n .null (some i) = r
        have b4 : Bal p (((u.ptake i).qget q).push r) h := by
          subst hr
          apply bal_push
          · refine bal_congr b3 rfl rfl ?_ ?_ ?_ rfl
            · intro q'; exact addQ_val ..
            · intro v; show h.v v = h.v v + b2n _; rw [b2n_none]; rfl
            · intro v; exact addP_val ..
          · refine ⟨Nat.le_refl _, by simp, ?_, by simp, by simp⟩
            intro j hj
            have : i = j := by simpa using hj
            subst this
            exact pnew_order e2
        have hg := push_get ((u.ptake i).qget q) r
        have hb : (((u.ptake i).qget q).push r).bug = u.bug := rfl
        rw [← hb]
        generalize hw : ((u.ptake i).qget q).push r = w at *
        have hl : 0 < r.lines := by rw [← hr]; exact hn
        obtain ⟨b5, e5, e6⟩ := bal_map (ok := ok3) b4 hg hl
        by_cases h2 : (w.allocMap (w.live.length - 1) r ok3).2 = true
        · rw [if_pos h2]; exact ⟨b5, e5⟩
        · rw [if_neg h2, e6 (by simpa using h2)]
          exact bal_put b4 hg (Or.inl (by rw [← hr]))

/-- The allocation of a request that has all else. -/
theorem bal_take {q n lines : Nat} {vol : Option Nat} (ok1 ok2 : Bool)
    (b : Bal p s (((h.addV vol).addQ q).addM)) :
    Bal p (s.take p q vol n lines ok1 ok2) h ∧ (s.take p q vol n lines ok1 ok2).bug = s.bug := by
  unfold St.take
  dsimp only
  cases e1 : pnew p n ok1 with
  | some i =>
    dsimp only
    refine ⟨?_, rfl⟩
    have b3 := bal_ptake b i
    apply bal_push
    · refine bal_congr b3 ?_ ?_ ?_ ?_ ?_ ?_
      · show (h.addV vol).md + 1 = h.md + 1; rw [addV_md]
      · show (h.addV vol).dc = h.dc + 0; rw [addV_dc]; rfl
      · intro q'; refine (addQ_val ..).trans ?_; rw [addV_q]; rfl
      · intro v; exact addV_val ..
      · intro v; refine (addP_val ..).trans ?_; show (h.addV vol).pool v + _ = _; rw [addV_pool]; rfl
      · show (h.addV vol).heap = h.heap + 0 + 0; rw [addV_heap]; rfl
    · refine ⟨Nat.le_refl _, by simp, ?_, by simp, by simp⟩
      intro j hj
      have : i = j := by simpa using hj
      subst this
      exact pnew_order e1
  | none =>
    dsimp only
    cases e2 : pnew p 1 ok2 with
    | some i =>
      dsimp only
      refine ⟨?_, rfl⟩
      have b3 := bal_ptake b i
      apply bal_push
      · refine bal_congr b3 ?_ ?_ ?_ ?_ ?_ ?_
        · show (h.addV vol).md + 1 = h.md + 1; rw [addV_md]
        · show (h.addV vol).dc = h.dc + 0; rw [addV_dc]; rfl
        · intro q'; refine (addQ_val ..).trans ?_; rw [addV_q]; rfl
        · intro v; exact addV_val ..
        · intro v; refine (addP_val ..).trans ?_; show (h.addV vol).pool v + _ = _; rw [addV_pool]; rfl
        · show (h.addV vol).heap = h.heap + 0 + 0; rw [addV_heap]; rfl
      · refine ⟨Nat.le_refl _, by simp, ?_, by simp, by simp⟩
        intro j hj
        have : i = j := by simpa using hj
        subst this
        exact pnew_order e2
    | none =>
      dsimp only
      obtain ⟨b2, e2⟩ := bal_mddec b
      obtain ⟨b3, e3⟩ := bal_qput b2
      obtain ⟨b4, e4⟩ := bal_vdec b3
      exact ⟨b4, by rw [e4, e3, e2]⟩

theorem vInc_bug (s : St) (o : Option Nat) : (s.vInc o).bug = s.bug := by cases o <;> rfl

/-- `ocf_req_new_cache`. -/
theorem bal_newCache {q n : Nat} {vol : Option Nat} (ok1 ok2 : Bool) (b : Bal p s h) :
    Bal p (s.newCache p q vol n ok1 ok2) h ∧ (s.newCache p q vol n ok1 ok2).bug = s.bug := by
  unfold St.newCache
  dsimp only
  have b1 := bal_vinc b vol
  have e1 := vInc_bug s vol
  rw [← e1]
  generalize s.vInc vol = u at b1 ⊢
  by_cases hf : u.mFrz = true
  · rw [if_pos hf]; exact bal_vdec b1
  · rw [if_neg hf]
    refine bal_take ok1 ok2 ?_
    refine bal_congr (bal_qget (s := u.mdInc) (h := (h.addV vol).addM) ?_ q) rfl rfl
      (fun _ => rfl) (fun _ => rfl) (fun _ => rfl) rfl
    exact ⟨by have := b1.md; show u.md + 1 = nLive u _ + nPend u _ + ((h.addV vol).md + 1); omega, b1.dc, b1.q, b1.v,
      b1.pool, b1.heap, b1.good⟩

/-- The beginning of `ocf_req_new`. -/
theorem bal_newStart {q n : Nat} {vol : Option Nat} (b : Bal p s h) :
    Bal p (s.newStart q vol n) h ∧ (s.newStart q vol n).bug = s.bug := by
  unfold St.newStart
  dsimp only
  have b1 := bal_qget (bal_vinc b vol) q
  have e1 : ((s.vInc vol).qget q).bug = s.bug := vInc_bug s vol
  rw [← e1]
  generalize (s.vInc vol).qget q = u at b1 ⊢
  by_cases hf : u.mFrz = true
  · rw [if_pos hf]
    refine ⟨bal_cpush (bal_congr b1 ?_ ?_ ?_ ?_ ?_ ?_), rfl⟩
    · show (h.addV vol).md = h.md + 0; rw [addV_md]; rfl
    · show (h.addV vol).dc = h.dc + 0; rw [addV_dc]; rfl
    · intro q'; refine (addQ_val ..).trans ?_; rw [addV_q]; rfl
    · intro v; exact addV_val ..
    · intro v; show (h.addV vol).pool v = _; rw [addV_pool]; rfl
    · show (h.addV vol).heap = h.heap; rw [addV_heap]
  · rw [if_neg hf]
    have b2 : Bal p { u with md := u.md + 1 } ((h.addV vol).addQ q).addM :=
      ⟨by have := b1.md; show u.md + 1 = nLive u _ + nPend u _ + (((h.addV vol).addQ q).md + 1); omega, b1.dc, b1.q,
        b1.v, b1.pool, b1.heap, b1.good⟩
    refine ⟨bal_cpush (s := { u with md := u.md + 1 }) (bal_congr b2 ?_ ?_ ?_ ?_ ?_ ?_), rfl⟩
    · show (h.addV vol).md + 1 = h.md + 1; rw [addV_md]
    · show (h.addV vol).dc = h.dc + 0; rw [addV_dc]; rfl
    · intro q'; refine (addQ_val ..).trans ?_; rw [addV_q]; rfl
    · intro v; exact addV_val ..
    · intro v; show (h.addV vol).pool v = _; rw [addV_pool]; rfl
    · show (h.addV vol).heap = h.heap; rw [addV_heap]

/-- `ocf_req_new` going for `refcnt.d2c`. -/
theorem bal_newSeek {k : Nat} {c : Pend} (b : Bal p s h) (hc : s.pend[k]? = some (some c)) (hs : c.stage = .seek) :
    Bal p (s.newSeek k c) h ∧ (s.dFrz = false → (s.newSeek k c).bug = s.bug) := by
  unfold St.newSeek
  by_cases hf : s.dFrz = true
  · rw [if_pos hf]
    exact ⟨⟨b.md, b.dc, b.q, b.v, b.pool, b.heap, b.good⟩, fun h => by rw [hf] at h; cases h⟩
  · rw [if_neg hf]
    have hm := fun f => nPend_mod (s := s) (c' := { c with stage := .direct }) hc f
    refine ⟨⟨?_, ?_, ?_, ?_, b.pool, b.heap, b.good⟩, fun _ => rfl⟩
    · have e := hm (fun c => c.stage = .cached)
      have e1 : b2n (decide (c.stage = .cached)) = 0 := by rw [hs]; rfl
      have e2 : b2n (decide (({ c with stage := .direct } : Pend).stage = .cached)) = 0 := rfl
      rw [e1, e2] at e
      have := b.md
      show s.md = nLive s _ + nPend { s with pend := s.pend.set k (some { c with stage := .direct }) } _ + h.md
      omega
    · have e := hm (fun c => c.stage = .direct)
      have e1 : b2n (decide (c.stage = .direct)) = 0 := by rw [hs]; rfl
      have e2 : b2n (decide (({ c with stage := .direct } : Pend).stage = .direct)) = 1 := rfl
      rw [e1, e2] at e
      have := b.dc
      show s.dc + 1 = nLive s _ + nPend { s with pend := s.pend.set k (some { c with stage := .direct }) } _ +
        s.leaked + h.dc
      omega
    · intro q
      have e := hm (fun c => c.queue = q)
      have := b.q q
      dsimp only at e
      show s.qref q = nLive s _ + nPend { s with pend := s.pend.set k (some { c with stage := .direct }) } _ + h.q q
      omega
    · intro q
      have e := hm (fun c => c.vol = some q)
      have := b.v q
      dsimp only at e
      show s.vref q = nLive s _ + nPend { s with pend := s.pend.set k (some { c with stage := .direct }) } _ + h.v q
      omega

/-- `ocf_req_new_d2c`. -/
theorem bal_newDirect {k : Nat} {c : Pend} (b : Bal p s h) (hc : s.pend[k]? = some (some c)) (hs : c.stage = .direct)
    (ok : Bool) : Bal p (s.newDirect p k c ok) h ∧ (s.newDirect p k c ok).bug = s.bug := by
  unfold St.newDirect
  dsimp only
  have b1 := bal_cpop b hc
  have e1 : (s.over k).bug = s.bug := rfl
  rw [← e1]
  generalize s.over k = u at b1 ⊢
  cases e : pnew p 1 ok with
  | some i =>
    dsimp only
    refine ⟨?_, rfl⟩
    have b2 := bal_ptake b1 i
    apply bal_push
    · refine bal_congr b2 ?_ ?_ (fun _ => rfl) (fun _ => rfl) ?_ rfl
      · show h.md + b2n (decide (c.stage = .cached)) = h.md + 0; rw [hs]; rfl
      · show h.dc + b2n (decide (c.stage = .direct)) = h.dc + 1; rw [hs]; rfl
      · intro v; exact addP_val ..
    · refine ⟨Nat.le_refl _, by simp, ?_, by simp, by simp⟩
      intro j hj
      have : i = j := by simpa using hj
      subst this
      exact pnew_order e
  | none =>
    dsimp only
    have b2 : Bal p u.leak ((h.addV c.vol).addQ c.queue) := by
      refine ⟨?_, ?_, ?_, ?_, ?_, ?_, b1.good⟩
      · refine b1.md.trans ?_
        show nLive u _ + nPend u _ + (h.md + b2n (decide (c.stage = .cached))) = nLive u _ + nPend u _ + (h.addV c.vol).md
        rw [hs, addV_md]; rfl
      · have := b1.dc
        have e3 : (h.addC c).dc = h.dc + 1 := by
          show h.dc + b2n (decide (c.stage = .direct)) = h.dc + 1; rw [hs]; rfl
        rw [e3] at this
        show u.dc = nLive u _ + nPend u _ + (u.leaked + 1) + (h.addV c.vol).dc
        rw [addV_dc]; omega
      · intro q
        refine (b1.q q).trans ?_
        rw [addQ_val, addV_q]; rfl
      · intro v
        refine (b1.v v).trans ?_
        show nLive u _ + nPend u _ + _ = nLive u _ + nPend u _ + (h.addV c.vol).v v
        rw [addV_val]; rfl
      · intro i
        refine (b1.pool i).trans ?_
        show nLive u _ + h.pool i = nLive u _ + (h.addV c.vol).pool i
        rw [addV_pool]
      · refine b1.heap.trans ?_
        show nLive u _ + nLive u _ + h.heap = nLive u _ + nLive u _ + (h.addV c.vol).heap
        rw [addV_heap]
    obtain ⟨b3, e3⟩ := bal_qput b2
    obtain ⟨b4, e4⟩ := bal_vdec b3
    exact ⟨b4, by rw [e4, e3]; rfl⟩

/-- The rest of `ocf_req_new`. -/
theorem bal_newCached {k : Nat} {c : Pend} (b : Bal p s h) (hc : s.pend[k]? = some (some c)) (hs : c.stage = .cached)
    (ok1 ok2 : Bool) : Bal p (s.newCached p k c ok1 ok2) h ∧ (s.newCached p k c ok1 ok2).bug = s.bug := by
  unfold St.newCached
  have b1 := bal_cpop b hc
  have e1 : (s.over k).bug = s.bug := rfl
  rw [← e1]
  generalize s.over k = u at b1 ⊢
  refine bal_take ok1 ok2 (bal_congr b1 ?_ ?_ ?_ ?_ ?_ ?_)
  · show h.md + b2n (decide (c.stage = .cached)) = (h.addV c.vol).md + 1; rw [hs, addV_md]; rfl
  · show h.dc + b2n (decide (c.stage = .direct)) = (h.addV c.vol).dc; rw [hs, addV_dc]; rfl
  · intro q; refine Eq.trans ?_ (addQ_val ..).symm; rw [addV_q]; rfl
  · intro v; exact (addV_val ..).symm
  · intro v; show h.pool v = (h.addV c.vol).pool v; rw [addV_pool]
  · show h.heap = (h.addV c.vol).heap; rw [addV_heap]

/-- Every step keeps the account, and only `ocf_req_new` going for a frozen `refcnt.d2c` is a bug. -/
theorem bal_step {t : St} (b : Bal p s h) (st : Step p s t) :
    Bal p t h ∧ (t.bug = s.bug ∨ (s.dFrz = true ∧ ∃ (k : Nat) (c : Pend), s.pend[k]? = some (some c) ∧ c.stage = .seek)) := by
  cases st with
  | mngt q ok => have := bal_newMngt b q ok; exact ⟨this.1, Or.inl this.2⟩
  | cleaner q mq n ok1 ok2 ok3 hn => have := bal_newCleaner b q mq n ok1 ok2 ok3 hn; exact ⟨this.1, Or.inl this.2⟩
  | cache q vol n ok1 ok2 hn => have := bal_newCache (q := q) (vol := vol) (n := n) ok1 ok2 b; exact ⟨this.1, Or.inl this.2⟩
  | start q vol n hn => have := bal_newStart (q := q) (vol := vol) (n := n) b; exact ⟨this.1, Or.inl this.2⟩
  | seek k c hc hs =>
    have := bal_newSeek b hc hs
    refine ⟨this.1, ?_⟩
    cases hd : s.dFrz with
    | false => exact Or.inl (this.2 hd)
    | true => exact Or.inr ⟨rfl, k, c, hc, hs⟩
  | direct k c ok hc hs => have := bal_newDirect b hc hs ok; exact ⟨this.1, Or.inl this.2⟩
  | cached k c ok1 ok2 hc hs => have := bal_newCached b hc hs ok1 ok2; exact ⟨this.1, Or.inl this.2⟩
  | map k r ok hr hl => have := bal_map (ok := ok) b hr hl; exact ⟨this.1, Or.inl this.2.1⟩
  | get k r hr =>
    refine ⟨?_, Or.inl rfl⟩
    have hg := b.good k r hr
    have hg' : Good p { r with refs := r.refs + 1 } := ⟨by show 1 ≤ r.refs + 1; omega, hg.heap, hg.pool, hg.own, hg.d2c⟩
    have hf : ∀ f : Rq → Bool, f { r with refs := r.refs + 1 } = f r →
        nLive { s with live := s.live.set k (some { r with refs := r.refs + 1 }) } f = nLive s f := by
      intro f e
      have := nLive_mod (s := s) (r' := { r with refs := r.refs + 1 }) hr f
      rw [e] at this
      omega
    obtain ⟨b1, b2, b3, b4, b5, b6, b7⟩ := b
    refine ⟨?_, ?_, ?_, ?_, ?_, ?_, ?_⟩
    · rw [hf _ rfl]; exact b1
    · rw [hf _ rfl]; exact b2
    · intro q; rw [hf _ rfl]; exact b3 q
    · intro q; rw [hf _ rfl]; exact b4 q
    · intro q; rw [hf _ rfl]; exact b5 q
    · rw [hf _ rfl, hf _ rfl]; exact b6
    · intro j x hx
      dsimp only at hx
      rw [List.getElem?_set] at hx
      split at hx
      · split at hx
        · simp at hx; rw [← hx]; exact hg'
        · simp at hx
      · exact b7 j x hx
  | put k r hr hv => have := bal_put b hr hv; exact ⟨this.1, Or.inl this.2⟩
  | ioPut k r v hr hv => have := bal_ioPut b hr; exact ⟨this.1, Or.inl this.2⟩
  | attach h1 h2 => exact ⟨⟨b.md, b.dc, b.q, b.v, b.pool, b.heap, b.good⟩, Or.inl rfl⟩
  | attached h1 h2 => exact ⟨⟨b.md, b.dc, b.q, b.v, b.pool, b.heap, b.good⟩, Or.inl rfl⟩
  | detach h1 h2 => exact ⟨⟨b.md, b.dc, b.q, b.v, b.pool, b.heap, b.good⟩, Or.inl rfl⟩

end Verif.ReqAlloc
