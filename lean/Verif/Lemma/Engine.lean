import Verif.Model.Engine
import Verif.Props.EngineSpec
import Verif.Lemma.Common

namespace Verif.Engine
open Verif.EngineSpec
variable {D : Type}

@[grind =] theorem upd_apply {α β : Type} [DecidableEq α] (f : α → β) (a : α) (b : β) (x : α) :
    upd f a b x = if x = a then b else f x := rfl
@[grind =] theorem upd_apply2 {α β γ : Type} [DecidableEq α] (f : α → γ → β) (a : α) (b : γ → β)
    (x : α) (y : γ) : upd f a b x y = if x = a then b y else f x y := by
  simp only [upd_apply]; split <;> rfl
@[grind =] theorem upd2_apply {β : Type} (f : Nat → Nat → β) (a b : Nat) (v : β) (x y : Nat) :
    upd2 f a b v x y = if x = a ∧ y = b then v else f x y := rfl

@[grind =] theorem isWr_gen : Eng.isWr .gen = false := rfl
@[grind =] theorem isRd_gen : Eng.isRd .gen = true := rfl
@[grind =] theorem isWr_pt : Eng.isWr .pt = false := rfl
@[grind =] theorem isRd_pt : Eng.isRd .pt = true := rfl
@[grind =] theorem isWr_wo : Eng.isWr .wo = false := rfl
@[grind =] theorem isRd_wo : Eng.isRd .wo = true := rfl
@[grind =] theorem isWr_wt : Eng.isWr .wt = true := rfl
@[grind =] theorem isRd_wt : Eng.isRd .wt = false := rfl
@[grind =] theorem isWr_wb : Eng.isWr .wb = true := rfl
@[grind =] theorem isRd_wb : Eng.isRd .wb = false := rfl
@[grind =] theorem isWr_wi : Eng.isWr .wi = true := rfl
@[grind =] theorem isRd_wi : Eng.isRd .wi = false := rfl
@[grind =] theorem isWr_wi2 : Eng.isWr .wi2 = true := rfl
@[grind =] theorem isRd_wi2 : Eng.isRd .wi2 = false := rfl
@[grind =] theorem isWr_cln : Eng.isWr .cln = false := rfl
@[grind =] theorem isRd_cln : Eng.isRd .cln = false := rfl
attribute [grind =] Eng.lockOk

/-- write `i` in flight covers the sector -/
def W (r : Req D) (c t : Nat) : Prop :=
  r.eng.isWr = true ∧ r.pc ≠ .free ∧ r.has c t = true

def wiLike (r : Req D) : Prop := r.eng = .wi ∨ r.eng = .wi2

def coreDone (r : Req D) (c t : Nat) : Prop :=
  r.eng = .wi2 ∨ (r.eng = .wi ∧ r.pc = .xfer ∧ r.toCore c t = false)

def settled (r : Req D) (c : Nat) : Prop :=
  wiLike r ∧ (r.updd c = true ∨ (r.eng = .wi2 ∧ r.ent c = .none))

/-- a WI write whose data is in the core and which will still drop the cached copy -/
def pd (r : Req D) (c t : Nat) : Prop := W r c t ∧ coreDone r c t ∧ ¬ settled r c

def pend (s : St D) (c t : Nat) : Prop := ∃ i, pd (s.req i) c t

/-- a WT write whose sector has still to reach the cache -/
def tc (r : Req D) (l c t : Nat) : Prop :=
  W r c t ∧ r.ent c = .line l ∧ r.held c = true ∧ r.eng = .wt ∧
    r.pc = .xfer ∧ r.toCache c t = true

def tcov (s : St D) (l c t : Nat) : Prop := ∃ i, tc (s.req i) l c t

/-- a read miss holding what it read from the core -/
def fb (r : Req D) (l c t : Nat) (v : D) : Prop :=
  r.eng = .gen ∧ r.excl = true ∧ (r.pc = .oread ∨ r.pc = .fill) ∧ r.ent c = .line l ∧
    r.has c t = true ∧ r.res c t = some v

structure Wf (r : Req D) : Prop where
  ho : ∀ c t, r.has c t = true → r.on c = true
  eo : ∀ c, r.ent c ≠ .unseen → r.on c = true
  hl : ∀ c, r.held c = true → ∃ l, r.ent c = .line l
  lk : r.pc ≠ .free → r.eng.lockOk r.excl
  fr : r.pc = .free → ∀ c, r.ent c = .unseen ∧ r.on c = false
  rd : r.pc ≠ .look → ∀ c, r.on c = true → r.ent c ≠ .unseen ∧ ∀ l, r.ent c = .line l → r.held c = true
  mp : (r.eng = .gen ∨ r.eng = .wt ∨ r.eng = .wb ∨ r.eng = .cln) → ∀ c, r.ent c ≠ .none
  p1 : r.pc = .cread → r.eng = .gen ∨ r.eng = .wo
  p2 : r.pc = .oread → r.eng.isRd = true
  p3 : r.pc = .over → r.eng = .wo
  p4 : r.pc = .fill → r.eng = .gen ∧ r.excl = true
  p5 : r.pc = .xfer → r.eng.isWr = true
  p6 : r.pc = .clean → r.eng = .gen ∨ r.eng = .pt ∨ r.eng = .wi ∨ r.eng = .cln
  lkd : r.pc = .look → ∀ c, r.updd c = false ∧ r.need c = false ∧ r.gone c = false ∧
      r.marked c = false ∧ r.fired c = false ∧ ∀ t, r.wback c t = false ∧ r.res c t = none
  ud : ∀ c, r.updd c = true → r.pc = .xfer ∧ ∃ l, r.ent c = .line l
  nd : ∀ c, r.need c = true → (∃ l, r.ent c = .line l) ∧ r.held c = true ∧
      (r.pc = .clean ∧ r.marked c = true ∨ r.pc = .xfer ∧ r.updd c = true)
  gn : ∀ c, r.gone c = true → r.updd c = true ∧ wiLike r ∧ (∃ l, r.ent c = .line l) ∧ r.held c = true
  wk : ∀ c t, r.wback c t = true → r.pc = .clean ∧ r.fired c = true
  fi : ∀ c, r.fired c = true → ∃ l, r.ent c = .line l
  mkd : ∀ c, r.marked c = true → ∃ l, r.ent c = .line l
  mwb : ∀ c, r.marked c = true → r.fired c = true ∧ ∀ t, r.wback c t = false
  tz : r.pc = .look ∨ r.pc = .clean → ∀ c t, r.toCache c t = false
  tx : r.pc = .xfer → ∀ c t, (r.toCache c t = true → r.has c t = true ∧ (r.eng = .wt ∨ r.eng = .wb)) ∧
      (r.toCore c t = true → r.has c t = true)
  tf : r.pc = .fill → ∀ c t, (r.toCache c t = true → r.has c t = true)
  w2 : r.pc = .xfer → r.eng = .wi2 → ∀ c t, r.toCore c t = false
  cr : r.pc = .clean → ∀ c t, r.res c t = none

/-- What the conditions on one request mention of the rest of the system.  `T`
stands for `tcov`. -/
structure Env (D : Type) where
  core : Nat → Nat → D
  cache : Nat → Nat → D
  map : Nat → Option Nat
  valid : Nat → Nat → Bool
  dirty : Nat → Nat → Bool
  ok : Nat → Nat → D → Prop
  fresh : Nat → Nat → D → Prop
  T : Nat → Nat → Nat → Prop

structure Glo (S : Nat) (s : Env D) : Prop where
  inj : ∀ l k c, s.map l = some c → s.map k = some c → l = k
  dv : ∀ l t, s.dirty l t = true → s.valid l t = true
  vm : ∀ l t, s.valid l t = true → s.map l ≠ none ∧ t < S
  a1 : ∀ l c t, s.map l = some c → s.valid l t = true → s.ok c t (s.cache l t) ∨ s.T l c t
  ad : ∀ l c t, s.map l = some c → s.dirty l t = true → s.ok c t (s.cache l t)
  a2 : ∀ c t, (∀ l, s.map l = some c → s.dirty l t = false) → s.ok c t (s.core c t)

structure Loc (S : Nat) (s : Env D) (exp : Nat → Nat → D → Prop) (r : Req D) : Prop where
  wf : Wf r
  link : ∀ c l, r.ent c = .line l →
    (r.gone c = false → s.map l = some c) ∧ (r.gone c = true → s.map l = none)
  uniq : ∀ c d l, r.ent c = .line l → r.ent d = .line l → c = d
  hs : ∀ c t, r.has c t = true → t < S
  n1 : ∀ c t, W r c t → s.fresh c t (r.data c t)
  n2 : ∀ c t v, W r c t → s.fresh c t v → s.ok c t v
  ar : ∀ l c t v, fb r l c t v → s.ok c t v
  fl : ∀ l c t v, fb r l c t v → r.pc = .fill → r.toCache c t = false → s.cache l t = v
  fn : ∀ c t, r.pc = .fill → r.has c t = true → r.res c t ≠ none
  ex : ∀ c t v, r.eng.isRd = true → r.pc ≠ .free → r.pc ≠ .fill → s.ok c t v → exp c t v
  pc0 : ∀ c t, r.eng.isRd = true → r.ent c = .none → exp c t (s.core c t)
  r1 : ∀ c t v, r.pc = .cread → r.res c t = some v → exp c t v
  hit : ∀ c t l, r.pc = .cread → r.has c t = true → r.ent c = .line l → s.valid l t = true
  r2 : ∀ c t v, r.pc = .oread → r.res c t = some v → exp c t v ∨
    (r.eng = .wo ∧ r.dany = true ∧ r.has c t = true ∧ ∃ l, r.ent c = .line l ∧ s.valid l t = true)
  r3 : ∀ c t v, r.pc = .over → r.toCache c t = false → r.res c t = some v → exp c t v
  r4 : ∀ c t, r.pc = .over → r.has c t = true → r.res c t ≠ none
  r5 : ∀ c t l, r.pc = .over → r.toCache c t = true → r.ent c = .line l → s.valid l t = true
  nd : ∀ c l t, r.ent c = .line l →
    ((r.pc = .oread ∧ (r.eng ≠ .wo ∨ r.dany = false)) ∨ r.pc = .fill ∨
      (r.pc = .clean ∧ r.marked c = true)) → s.dirty l t = false
  c1 : ∀ c l t, r.ent c = .line l → r.wback c t = true →
    r.buf c t = s.cache l t ∧ s.valid l t = true
  c2 : ∀ c l t, r.pc = .clean → r.ent c = .line l → r.fired c = true →
    s.dirty l t = true → r.wback c t = false → s.ok c t (s.core c t)
  wcr : ∀ c t, W r c t → coreDone r c t → s.fresh c t (s.core c t)
  wt : ∀ c t, W r c t → r.eng = .wt → r.pc = .xfer → r.toCore c t = false →
    s.fresh c t (s.core c t)
  wca : ∀ c l t, W r c t → (r.eng = .wt ∨ r.eng = .wb) → r.pc = .xfer →
    r.toCache c t = false → r.ent c = .line l → s.cache l t = r.data c t
  wud : ∀ c l t, W r c t → r.updd c = true → r.ent c = .line l →
    (r.eng = .wb → s.dirty l t = true) ∧
    (r.eng = .wt → s.dirty l t = false ∧ s.valid l t = true)
  wux : ∀ c, r.updd c = true → ∀ d t, r.toCache d t = false ∧ r.toCore d t = false
  se : ∀ c t l, W r c t → settled r c → s.map l = some c → s.valid l t = true →
    s.fresh c t (s.cache l t) ∨ s.T l c t
  sd : ∀ c t l, W r c t → wiLike r → (r.eng = .wi2 ∨ r.ent c ≠ .unseen) →
    s.map l = some c → s.dirty l t = true →
    s.fresh c t (s.cache l t) ∨ (r.eng = .wi ∧ r.ent c = .line l ∧ r.updd c = false)

def env (s : St D) (m : Mon D) : Env D :=
  { core := s.core, cache := s.cache, map := s.map, valid := s.valid, dirty := s.dirty
    ok := m.ok, fresh := m.fresh, T := tcov s }

structure Inv (S : Nat) (s : St D) (m : Mon D) : Prop where
  glo : Glo S (env s m)
  loc : ∀ i, Loc S (env s m) (m.exp i) (s.req i)
  lock : ∀ i j c d l, i ≠ j → s.holds i c l → s.holds j d l →
    (s.req i).excl = false ∧ (s.req j).excl = false
  sr : ∀ i j c t l v, W (s.req i) c t → settled (s.req i) c → fb (s.req j) l c t v → m.fresh c t v
  mw : ∀ i c t, m.wr i c t = true ↔ W (s.req i) c t
  mr : ∀ i c t, m.rd i c t = true ↔ (s.req i).eng.isRd = true ∧ (s.req i).pc ≠ .free ∧
    (s.req i).pc ≠ .fill ∧ (s.req i).has c t = true

/-- The environment with larger `T`. -/
def Env.ext (e : Env D) (T : Nat → Nat → Nat → Prop) : Env D := { e with T := T }

/-- Requests other than WI keep their lines mapped. -/
theorem Loc.mapped {S : Nat} {e : Env D} {x} {r : Req D} (h : Loc S e x r) {c l : Nat}
    (a : r.ent c = .line l) (b : ¬ wiLike r ∨ r.pc ≠ .xfer) : e.map l = some c := by
  apply (h.link c l a).1
  cases hq : r.gone c with
  | false => rfl
  | true =>
    have := h.wf.gn c hq
    have h2 := (h.wf.ud c this.1).1
    rcases b with b | b
    · exact absurd this.2.1 b
    · exact absurd h2 b

theorem Glo.mono {S : Nat} {e : Env D} (h : Glo S e) {T} (hT : ∀ l c t, e.T l c t → T l c t) :
    Glo S (e.ext T) :=
  { h with a1 := fun l c t a b => (h.a1 l c t a b).imp id (hT l c t) }

theorem Loc.mono {S : Nat} {e : Env D} {x r} (h : Loc S e x r) {T} (hT : ∀ l c t, e.T l c t → T l c t) :
    Loc S (e.ext T) x r :=
  { h with se := fun c t l a b d f => (h.se c t l a b d f).imp id (hT l c t) }

theorem holds_setReq_ne {s : St D} {i j c l : Nat} {r : Req D} (h : j ≠ i) :
    (s.setReq i r).holds j c l ↔ s.holds j c l := by
  simp [St.holds, St.setReq, upd_apply, h]

theorem holds_setReq_eq {s : St D} {i c l : Nat} {r : Req D} :
    (s.setReq i r).holds i c l ↔ r.ent c = .line l ∧ r.held c = true := by
  simp [St.holds, St.setReq, upd_apply]

theorem req_setReq {s : St D} {i j : Nat} {r : Req D} :
    (s.setReq i r).req j = if j = i then r else s.req j := by
  simp [St.setReq, upd_apply]

theorem ex_upd {Q : Req D → Prop} {f : Nat → Req D} {i : Nat} {r : Req D}
    (h : Q (f i) → Q r) : (∃ j, Q (f j)) → ∃ j, Q (upd f i r j) := by
  rintro ⟨j, hj⟩
  by_cases e : j = i
  · subst e; exact ⟨j, by simpa [upd_apply] using h hj⟩
  · exact ⟨j, by simpa [upd_apply, e] using hj⟩

/-- A step which changes only request `i`, and only in ways not seen by the monitor. -/
theorem Inv.loc_step {S : Nat} {s : St D} {m : Mon D} (h : Inv S s m) (i : Nat) {r0 : Req D}
    (h0 : s.req i = r0) (r : Req D)
    (htc : ∀ l c t, tc r0 l c t → tc r l c t)
    (hl : Loc S (env s m) (m.exp i) r)
    (hk : ∀ c l, r.ent c = .line l → r.held c = true →
      (r.excl = r0.excl ∧ s.holds i c l) ∨
      ∀ j d, j ≠ i → s.holds j d l → r.excl = false ∧ (s.req j).excl = false)
    (hs1 : ∀ c t, W r c t → settled r c → (W r0 c t ∧ settled r0 c) ∨
      ∀ j l v, j ≠ i → ¬ fb (s.req j) l c t v)
    (hs2 : ∀ l c t v, fb r l c t v → fb r0 l c t v ∨
      ∀ j, j ≠ i → W (s.req j) c t → settled (s.req j) c → m.fresh c t v)
    (hs3 : ∀ l c t v, fb r l c t v → ¬ r.eng.isWr = true)
    (hw : ∀ c t, (W r c t ↔ W r0 c t) ∧ (W r c t → r.data c t = r0.data c t))
    (hr : ∀ c t, (r.eng.isRd = true ∧ r.pc ≠ .free ∧ r.pc ≠ .fill ∧ r.has c t = true) ↔
      (r0.eng.isRd = true ∧ r0.pc ≠ .free ∧ r0.pc ≠ .fill ∧
        r0.has c t = true)) :
    Inv S (s.setReq i r) m := by
  subst h0
  have hT : ∀ l c t, tcov s l c t → tcov (s.setReq i r) l c t :=
    fun l c t => ex_upd (Q := fun r => tc r l c t) (htc l c t)
  refine ⟨h.glo.mono hT, ?_, ?_, ?_, ?_, ?_⟩
  · intro j
    rw [req_setReq]
    split
    · next e => subst e; exact hl.mono hT
    · exact (h.loc j).mono hT
  · intro a b c d l hab ha hb
    rw [req_setReq, req_setReq]
    by_cases e1 : a = i
    · subst e1
      have hb' := (holds_setReq_ne (Ne.symm hab)).1 hb
      have ha' := holds_setReq_eq.1 ha
      rw [if_pos rfl, if_neg (Ne.symm hab)]
      rcases hk c l ha'.1 ha'.2 with ⟨q1, q2⟩ | q
      · rw [q1]; exact h.lock a b c d l hab q2 hb'
      · exact q b d (Ne.symm hab) hb'
    · have ha' := (holds_setReq_ne e1).1 ha
      by_cases e2 : b = i
      · subst e2
        have hb' := holds_setReq_eq.1 hb
        rw [if_neg hab, if_pos rfl]
        rcases hk d l hb'.1 hb'.2 with ⟨q1, q2⟩ | q
        · rw [q1]; exact h.lock a b c d l hab ha' q2
        · exact (q a c hab ha').symm
      · have hb' := (holds_setReq_ne e2).1 hb
        rw [if_neg e1, if_neg e2]
        exact h.lock a b c d l hab ha' hb'
  · intro a b c t l v h1 h2 h3
    rw [req_setReq] at h1 h2 h3
    by_cases e1 : a = i
    · rw [if_pos e1] at h1 h2
      by_cases e2 : b = i
      · rw [if_pos e2] at h3
        exact absurd h1.1 (hs3 l c t v h3)
      · rw [if_neg e2] at h3
        rcases hs1 c t h1 h2 with ⟨q1, q2⟩ | q
        · exact h.sr i b c t l v q1 q2 h3
        · exact absurd h3 (q b l v e2)
    · rw [if_neg e1] at h1 h2
      by_cases e2 : b = i
      · rw [if_pos e2] at h3
        rcases hs2 l c t v h3 with q | q
        · exact h.sr a i c t l v h1 h2 q
        · exact q a e1 h1 h2
      · rw [if_neg e2] at h3
        exact h.sr a b c t l v h1 h2 h3
  · intro j c t
    rw [h.mw, req_setReq]
    split
    · next e => subst e; exact (hw c t).1.symm
    · rfl
  · intro j c t
    rw [h.mr, req_setReq]
    split
    · next e => subst e; exact (hr c t).symm
    · rfl

/-- Proves the conditions on a request's own fields. -/
macro "wf_auto " hw:term : tactic => `(tactic| (
  have hw0 := $hw
  constructor
  case' ho => first
    | exact hw0.ho
    | (have hx := hw0.ho; clear hw0; simp only [wiLike] at *; grind)
    | skip
  case' eo => first
    | exact hw0.eo
    | (have hx := hw0.eo; clear hw0; simp only [wiLike] at *; grind)
    | skip
  case' hl => first
    | exact hw0.hl
    | (have hx := hw0.hl; clear hw0; simp only [wiLike] at *; grind)
    | skip
  case' lk => first
    | exact hw0.lk
    | (have hx := hw0.lk; clear hw0; simp only [wiLike] at *; grind)
    | skip
  case' fr => first
    | exact hw0.fr
    | (have hx := hw0.fr; clear hw0; simp only [wiLike] at *; grind)
    | skip
  case' rd => first
    | exact hw0.rd
    | (have hx := hw0.rd; clear hw0; simp only [wiLike] at *; grind)
    | skip
  case' mp => first
    | exact hw0.mp
    | (have hx := hw0.mp; clear hw0; simp only [wiLike] at *; grind)
    | skip
  case' p1 => first
    | exact hw0.p1
    | (have hx := hw0.p1; clear hw0; simp only [wiLike] at *; grind)
    | skip
  case' p2 => first
    | exact hw0.p2
    | (have hx := hw0.p2; clear hw0; simp only [wiLike] at *; grind)
    | skip
  case' p3 => first
    | exact hw0.p3
    | (have hx := hw0.p3; clear hw0; simp only [wiLike] at *; grind)
    | skip
  case' p4 => first
    | exact hw0.p4
    | (have hx := hw0.p4; clear hw0; simp only [wiLike] at *; grind)
    | skip
  case' p5 => first
    | exact hw0.p5
    | (have hx := hw0.p5; clear hw0; simp only [wiLike] at *; grind)
    | skip
  case' p6 => first
    | exact hw0.p6
    | (have hx := hw0.p6; clear hw0; simp only [wiLike] at *; grind)
    | skip
  case' lkd => first
    | exact hw0.lkd
    | (have hx := hw0.lkd; clear hw0; simp only [wiLike] at *; grind)
    | skip
  case' ud => first
    | exact hw0.ud
    | (have hx := hw0.ud; clear hw0; simp only [wiLike] at *; grind)
    | skip
  case' nd => first
    | exact hw0.nd
    | (have hx := hw0.nd; clear hw0; simp only [wiLike] at *; grind)
    | skip
  case' gn => first
    | exact hw0.gn
    | (have hx := hw0.gn; clear hw0; simp only [wiLike] at *; grind)
    | skip
  case' wk => first
    | exact hw0.wk
    | (have hx := hw0.wk; clear hw0; simp only [wiLike] at *; grind)
    | skip
  case' fi => first
    | exact hw0.fi
    | (have hx := hw0.fi; clear hw0; simp only [wiLike] at *; grind)
    | skip
  case' mkd => first
    | exact hw0.mkd
    | (have hx := hw0.mkd; clear hw0; simp only [wiLike] at *; grind)
    | skip
  case' mwb => first
    | exact hw0.mwb
    | (have hx := hw0.mwb; clear hw0; simp only [wiLike] at *; grind)
    | skip
  case' tz => first
    | exact hw0.tz
    | (have hx := hw0.tz; clear hw0; simp only [wiLike] at *; grind)
    | skip
  case' tx => first
    | exact hw0.tx
    | (have hx := hw0.tx; clear hw0; simp only [wiLike] at *; grind)
    | skip
  case' tf => first
    | exact hw0.tf
    | (have hx := hw0.tf; clear hw0; simp only [wiLike] at *; grind)
    | skip
  case' w2 => first
    | exact hw0.w2
    | (have hx := hw0.w2; clear hw0; simp only [wiLike] at *; grind)
    | skip
  case' cr => first
    | exact hw0.cr
    | (have hx := hw0.cr; clear hw0; simp only [wiLike] at *; grind)
    | skip
  ))

/-- Proves the conditions linking a request to its environment. -/
macro "loc_auto " hl:term : tactic => `(tactic| (
  have hl0 := $hl
  constructor
  case' wf => skip
  case' link => first
    | exact hl0.link
    | (have hx := hl0.link; clear hl0; simp only [W, fb, settled, wiLike, coreDone, env] at *; grind)
    | skip
  case' uniq => first
    | exact hl0.uniq
    | (have hx := hl0.uniq; clear hl0; simp only [W, fb, settled, wiLike, coreDone, env] at *; grind)
    | skip
  case' hs => first
    | exact hl0.hs
    | (have hx := hl0.hs; clear hl0; simp only [W, fb, settled, wiLike, coreDone, env] at *; grind)
    | skip
  case' n1 => first
    | exact hl0.n1
    | (have hx := hl0.n1; clear hl0; simp only [W, fb, settled, wiLike, coreDone, env] at *; grind)
    | skip
  case' n2 => first
    | exact hl0.n2
    | (have hx := hl0.n2; clear hl0; simp only [W, fb, settled, wiLike, coreDone, env] at *; grind)
    | skip
  case' ar => first
    | exact hl0.ar
    | (have hx := hl0.ar; clear hl0; simp only [W, fb, settled, wiLike, coreDone, env] at *; grind)
    | skip
  case' fl => first
    | exact hl0.fl
    | (have hx := hl0.fl; clear hl0; simp only [W, fb, settled, wiLike, coreDone, env] at *; grind)
    | skip
  case' fn => first
    | exact hl0.fn
    | (have hx := hl0.fn; clear hl0; simp only [W, fb, settled, wiLike, coreDone, env] at *; grind)
    | skip
  case' ex => first
    | exact hl0.ex
    | (have hx := hl0.ex; clear hl0; simp only [W, fb, settled, wiLike, coreDone, env] at *; grind)
    | skip
  case' pc0 => first
    | exact hl0.pc0
    | (have hx := hl0.pc0; clear hl0; simp only [W, fb, settled, wiLike, coreDone, env] at *; grind)
    | skip
  case' r1 => first
    | exact hl0.r1
    | (have hx := hl0.r1; clear hl0; simp only [W, fb, settled, wiLike, coreDone, env] at *; grind)
    | skip
  case' hit => first
    | exact hl0.hit
    | (have hx := hl0.hit; clear hl0; simp only [W, fb, settled, wiLike, coreDone, env] at *; grind)
    | skip
  case' r2 => first
    | exact hl0.r2
    | (have hx := hl0.r2; clear hl0; simp only [W, fb, settled, wiLike, coreDone, env] at *; grind)
    | skip
  case' r3 => first
    | exact hl0.r3
    | (have hx := hl0.r3; clear hl0; simp only [W, fb, settled, wiLike, coreDone, env] at *; grind)
    | skip
  case' r4 => first
    | exact hl0.r4
    | (have hx := hl0.r4; clear hl0; simp only [W, fb, settled, wiLike, coreDone, env] at *; grind)
    | skip
  case' r5 => first
    | exact hl0.r5
    | (have hx := hl0.r5; clear hl0; simp only [W, fb, settled, wiLike, coreDone, env] at *; grind)
    | skip
  case' nd => first
    | exact hl0.nd
    | (have hx := hl0.nd; clear hl0; simp only [W, fb, settled, wiLike, coreDone, env] at *; grind)
    | skip
  case' c1 => first
    | exact hl0.c1
    | (have hx := hl0.c1; clear hl0; simp only [W, fb, settled, wiLike, coreDone, env] at *; grind)
    | skip
  case' c2 => first
    | exact hl0.c2
    | (have hx := hl0.c2; clear hl0; simp only [W, fb, settled, wiLike, coreDone, env] at *; grind)
    | skip
  case' wcr => first
    | exact hl0.wcr
    | (have hx := hl0.wcr; clear hl0; simp only [W, fb, settled, wiLike, coreDone, env] at *; grind)
    | skip
  case' wt => first
    | exact hl0.wt
    | (have hx := hl0.wt; clear hl0; simp only [W, fb, settled, wiLike, coreDone, env] at *; grind)
    | skip
  case' wca => first
    | exact hl0.wca
    | (have hx := hl0.wca; clear hl0; simp only [W, fb, settled, wiLike, coreDone, env] at *; grind)
    | skip
  case' wud => first
    | exact hl0.wud
    | (have hx := hl0.wud; clear hl0; simp only [W, fb, settled, wiLike, coreDone, env] at *; grind)
    | skip
  case' wux => first
    | exact hl0.wux
    | (have hx := hl0.wux; clear hl0; simp only [W, fb, settled, wiLike, coreDone, env] at *; grind)
    | skip
  case' se => first
    | exact hl0.se
    | (have hx := hl0.se; clear hl0; simp only [W, fb, settled, wiLike, coreDone, env] at *; grind)
    | skip
  case' sd => first
    | exact hl0.sd
    | (have hx := hl0.sd; clear hl0; simp only [W, fb, settled, wiLike, coreDone, env] at *; grind)
    | skip
  ))

/-- Proves the side conditions of `Inv.loc_step`. -/
macro "side_auto" : tactic => `(tactic| (
  case' htc => first | (intro _ _ _; exact id) | (simp only [tc, W] at *; grind) | skip
  case' hk => first | (intro c l a b; exact Or.inl ⟨rfl, by simp only [St.holds] at *; grind⟩) |
    (simp only [St.holds] at *; grind) | skip
  case' hs1 => first | (intro c t a b; exact Or.inl ⟨a, b⟩) | (simp only [W, settled, wiLike] at *; grind) | skip
  case' hs2 => first | (intro l c t v a; exact Or.inl a) | (simp only [fb] at *; grind) | skip
  case' hs3 => first | (simp only [fb] at *; grind) | skip
  case' hw => first | (intro c t; exact ⟨Iff.rfl, fun _ => rfl⟩) | (simp only [W] at *; grind) | skip
  case' hr => first | (intro c t; exact Iff.rfl) | grind | skip
  ))

/-- Observable events of the model. -/
def obs : Ev D → Obs D
  | .tau => .nothing
  | .invR i h => .callR i h
  | .retR i r => .retR i r
  | .invW i h d => .callW i h d
  | .ackW i => .ackW i
  | .errR i => .errR i
  | .errW i => .errW i
  | .invD i h => .callD i h
  | .crash => .crash

end Verif.Engine
