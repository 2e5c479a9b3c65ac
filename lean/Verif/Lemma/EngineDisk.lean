import Verif.Lemma.EngineDiscard

namespace Verif.Engine
open Verif.EngineSpec
variable {D : Type} {S : Nat} {s s' : St D} {m m' : Mon D}

/-- The copy on the cache device says that line `l` holds core line `c` with sector
`t` dirty. -/
def St.dd (s : St D) (l c t : Nat) : Prop := s.dmap l = some c ∧ s.ddirty l t = true

/-- a request which will still flush the metadata of the line -/
def hold (r : Req D) (l c : Nat) : Prop := r.ent c = .line l ∧ r.need c = true

def holdw (r : Req D) (l c t : Nat) : Prop :=
  r.ent c = .line l ∧ r.need c = true ∧ r.eng = .wb ∧ r.updd c = true ∧ r.has c t = true

/-- a WI write which has looked up the line -/
def seen (r : Req D) (c t : Nat) : Prop :=
  W r c t ∧ wiLike r ∧ (r.eng = .wi2 ∨ r.ent c ≠ .unseen)

def esc (r : Req D) (l c : Nat) : Prop :=
  r.eng = .wi ∧ r.ent c = .line l ∧ (r.updd c = false ∨ r.need c = true)

/-- What holds of the copy on the cache device. -/
structure Dsk (S : Nat) (s : St D) (m : Mon D) : Prop where
  b0 : ∀ l t, s.ddirty l t = true → s.dmap l ≠ none ∧ t < S
  b1 : ∀ l c t, s.map l = some c → s.dirty l t = true →
    s.dd l c t ∨ ∃ i, holdw (s.req i) l c t
  b2 : ∀ l c t, s.dd l c t → (s.map l = some c ∧ s.dirty l t = true) ∨ ∃ i, hold (s.req i) l c
  b3 : ∀ l k c t u, s.dd l c t → s.dd k c u → l = k
  b4 : ∀ l c t, s.dd l c t → m.ok c t (s.cache l t)
  b5 : ∀ c t, (∀ l, ¬ s.dd l c t) → m.ok c t (s.core c t)
  b6 : ∀ l c t, s.dd l c t → s.map l = some c ∨ ∀ k, s.map k ≠ some c
  bk : ∀ i l c t, seen (s.req i) c t → s.dd l c t →
    m.fresh c t (s.cache l t) ∨ esc (s.req i) l c

/-- A step which changes one request only, apart from the valid bits. -/
theorem Dsk.step1 (h : Dsk S s m) (i : Nat) (r : Req D)
    (e1 : s'.req = upd s.req i r) (e2 : s'.ddirty = s.ddirty) (e3 : s'.dmap = s.dmap)
    (e4 : s'.map = s.map) (e5 : s'.dirty = s.dirty) (e6 : s'.cache = s.cache)
    (e7 : s'.core = s.core)
    (hok : ∀ l c t, s.dd l c t → m.ok c t (s.cache l t) → m'.ok c t (s.cache l t))
    (hokc : ∀ c t, (∀ l, ¬ s.dd l c t) → m.ok c t (s.core c t) → m'.ok c t (s.core c t))
    (hfr : ∀ j c t v, W (s.req j) c t → m.fresh c t v → m'.fresh c t v)
    (hh : ∀ l c, hold (s.req i) l c → hold r l c)
    (hw : ∀ l c t, holdw (s.req i) l c t → holdw r l c t)
    (hs : ∀ l c t, seen r c t → s.dd l c t →
      (seen (s.req i) c t ∧ (esc (s.req i) l c → esc r l c ∨ m'.fresh c t (s.cache l t))) ∨
        m'.fresh c t (s.cache l t) ∨ esc r l c) : Dsk S s' m' := by
  have hd : ∀ l c t, s'.dd l c t ↔ s.dd l c t := by intro l c t; simp only [St.dd, e2, e3]
  constructor
  · intro l t a; rw [e2] at a; rw [e3]; exact h.b0 l t a
  · intro l c t a b
    rw [e4] at a; rw [e5] at b; rw [hd, e1]
    exact (h.b1 l c t a b).imp id (ex_upd (Q := fun r => holdw r l c t) (hw l c t))
  · intro l c t a
    rw [hd] at a; rw [e4, e5, e1]
    exact (h.b2 l c t a).imp id (ex_upd (Q := fun r => hold r l c) (hh l c))
  · intro l k c t u a b; rw [hd] at a b; exact h.b3 l k c t u a b
  · intro l c t a; rw [hd] at a; rw [e6]; exact hok _ _ _ a (h.b4 l c t a)
  · intro c t a
    rw [e7]
    have a' : ∀ l, ¬ s.dd l c t := fun l z => a l ((hd l c t).2 z)
    exact hokc _ _ a' (h.b5 c t a')
  · intro l c t a; rw [hd] at a; rw [e4]; exact h.b6 l c t a
  · intro j l c t a b
    rw [hd] at b; rw [e6, e1]; rw [e1] at a
    by_cases q : j = i
    · subst q
      simp only [upd_apply, if_true] at a ⊢
      rcases hs l c t a b with ⟨z1, z2⟩ | z
      · rcases h.bk j l c t z1 b with y | y
        · exact Or.inl (hfr j c t _ z1.1 y)
        · exact (z2 y).symm
      · exact z
    · simp only [upd_apply, if_neg q] at a ⊢
      exact (h.bk j l c t a b).imp (hfr j c t _ a.1) id

/-- Same, with the same monitor. -/
theorem Dsk.step0 (h : Dsk S s m) (i : Nat) {r0 : Req D} (h0 : s.req i = r0) (r : Req D)
    (hh : ∀ l c, hold r0 l c → hold r l c)
    (hw : ∀ l c t, holdw r0 l c t → holdw r l c t)
    (hs : ∀ l c t, seen r c t → s.dd l c t →
      (seen r0 c t ∧ (esc r0 l c → esc r l c ∨ m.fresh c t (s.cache l t))) ∨
        m.fresh c t (s.cache l t) ∨ esc r l c) : Dsk S (s.setReq i r) m := by
  subst h0
  exact h.step1 i r rfl rfl rfl rfl rfl rfl rfl (fun _ _ _ _ z => z) (fun _ _ _ z => z)
    (fun _ _ _ _ _ z => z) hh hw hs

theorem hold_holds (h : Inv S s m) {j l c : Nat} (a : hold (s.req j) l c) : s.holds j c l :=
  ⟨a.1, ((h.loc j).wf.nd c a.2).2.1⟩

theorem holdw_hold {r : Req D} {l c t : Nat} (a : holdw r l c t) : hold r l c := ⟨a.1, a.2.1⟩

/-- Whoever holds the line exclusively and need not flush it sees the device's copy
of its dirty sectors. -/
theorem Dsk.own (h : Dsk S s m) (hi : Inv S s m) {i c l t : Nat} (a : s.holds i c l)
    (e : (s.req i).excl = true) (n : (s.req i).need c = false)
    (d : s.dd l c t) : s.map l = some c ∧ s.dirty l t = true := by
  rcases h.b2 l c t d with q | ⟨j, q⟩
  · exact q
  · by_cases hj : j = i
    · subst hj; simp [q.2] at n
    · exact (hi.alone hj a e (hold_holds hi q)).elim

/-- A line held exclusively is recorded on the device for no other core line. -/
theorem Dsk.same (h : Dsk S s m) (hi : Inv S s m) {i c l c' t : Nat} (a : s.holds i c l)
    (e : (s.req i).excl = true) (g : s.map l = some c) (d : s.dd l c' t) : c' = c := by
  rcases h.b2 l c' t d with q | ⟨j, q⟩
  · rw [q.1] at g; cases g; rfl
  · by_cases hj : j = i
    · subst hj; exact (hi.loc j).uniq c' c l q.1 a.1
    · exact (hi.alone hj a e (hold_holds hi q)).elim

/-- Likewise for a sector about to become dirty. -/
theorem Dsk.own1 (h : Dsk S s m) (hi : Inv S s m) {i c l t : Nat} (a : s.holds i c l)
    (e : (s.req i).excl = true) (n : (s.req i).need c = false)
    (g : s.map l = some c) (d : s.dirty l t = true) : s.dd l c t := by
  rcases h.b1 l c t g d with q | ⟨j, q⟩
  · exact q
  · by_cases hj : j = i
    · subst hj; simp [q.2.1] at n
    · exact (hi.alone hj a e (hold_holds hi (holdw_hold q))).elim

macro "d_auto" : tactic => `(tactic| (
  case' hh => first | exact fun _ _ z => z | (simp only [hold, Req.done, Req.fresh] at *; grind) | skip
  case' hw => first | exact fun _ _ _ z => z | (simp only [holdw, Req.done, Req.fresh] at *; grind) | skip
  case' hs => first | exact fun _ _ _ z _ => Or.inl ⟨z, Or.inl⟩ |
    (simp only [seen, esc, W, wiLike, Req.done, Req.fresh] at *; grind) | skip
  ))

/-- A step which leaves the copy on the device alone. -/
theorem Dsk.step2 (h : Dsk S s m) (i : Nat) (r : Req D)
    (e1 : s'.req = upd s.req i r) (e2 : s'.ddirty = s.ddirty) (e3 : s'.dmap = s.dmap)
    (hb1 : ∀ l c t, s'.map l = some c → s'.dirty l t = true →
      (s.map l = some c ∧ s.dirty l t = true) ∨ s.dd l c t ∨ holdw r l c t)
    (hb2 : ∀ l c t, s.dd l c t → s.map l = some c → s.dirty l t = true →
      (s'.map l = some c ∧ s'.dirty l t = true) ∨ hold r l c)
    (hca : ∀ l c t, s.dd l c t → s'.cache l t = s.cache l t ∨
      (m.ok c t (s'.cache l t) ∧ ∀ j, seen (s'.req j) c t →
        m.fresh c t (s'.cache l t) ∨ esc (s'.req j) l c))
    (hco : ∀ c t, s'.core c t = s.core c t ∨ m.ok c t (s'.core c t))
    (hb6 : ∀ l c t, s.dd l c t → s.map l = some c ∨ (∀ k, s.map k ≠ some c) →
      s'.map l = some c ∨ ∀ k, s'.map k ≠ some c)
    (hh : ∀ l c, hold (s.req i) l c → hold r l c)
    (hw : ∀ l c t, holdw (s.req i) l c t → holdw r l c t)
    (hs : ∀ l c t, seen r c t → s.dd l c t →
      (seen (s.req i) c t ∧ (esc (s.req i) l c → esc r l c ∨ m.fresh c t (s.cache l t))) ∨
        m.fresh c t (s.cache l t) ∨ esc r l c) : Dsk S s' m := by
  have hd : ∀ l c t, s'.dd l c t ↔ s.dd l c t := by intro l c t; simp only [St.dd, e2, e3]
  constructor
  · intro l t a; rw [e2] at a; rw [e3]; exact h.b0 l t a
  · intro l c t a b
    rw [hd, e1]
    rcases hb1 l c t a b with ⟨q1, q2⟩ | q | q
    · exact (h.b1 l c t q1 q2).imp id (ex_upd (Q := fun r => holdw r l c t) (hw l c t))
    · exact Or.inl q
    · exact Or.inr ⟨i, by simpa [upd_apply] using q⟩
  · intro l c t a
    rw [hd] at a; rw [e1]
    rcases h.b2 l c t a with q | q
    · exact (hb2 l c t a q.1 q.2).imp id fun z => ⟨i, by simpa [upd_apply] using z⟩
    · exact Or.inr (ex_upd (Q := fun r => hold r l c) (hh l c) q)
  · intro l k c t u a b; rw [hd] at a b; exact h.b3 l k c t u a b
  · intro l c t a
    rw [hd] at a
    rcases hca l c t a with q | q
    · rw [q]; exact h.b4 l c t a
    · exact q.1
  · intro c t a
    rcases hco c t with q | q
    · rw [q]; exact h.b5 c t fun l z => a l ((hd l c t).2 z)
    · exact q
  · intro l c t a; rw [hd] at a; exact hb6 l c t a (h.b6 l c t a)
  · intro j l c t a b
    rw [hd] at b
    rcases hca l c t b with z | z
    · rw [z, e1]; rw [e1] at a
      by_cases q : j = i
      · subst q
        simp only [upd_apply, if_true] at a ⊢
        rcases hs l c t a b with ⟨z1, z2⟩ | z
        · rcases h.bk j l c t z1 b with y | y
          · exact Or.inl y
          · exact (z2 y).symm
        · exact z
      · simp only [upd_apply, if_neg q] at a ⊢
        exact h.bk j l c t a b
    · exact z.2 j a

/-- The metadata of one line is written as it is in RAM. -/
theorem Dsk.sync (h : Dsk S s m) (hi : Inv S s m) (l : Nat)
    (e2 : s'.ddirty = upd s.ddirty l (s.dirty l)) (e3 : s'.dmap = upd s.dmap l (s.map l))
    (e4 : s'.map = s.map) (e5 : s'.dirty = s.dirty) (e6 : s'.cache = s.cache)
    (e7 : s'.core = s.core)
    (hh : ∀ i k c, hold (s.req i) k c → hold (s'.req i) k c ∨ k = l)
    (hw : ∀ i k c t, holdw (s.req i) k c t → holdw (s'.req i) k c t ∨ k = l)
    (hs1 : ∀ i c t, seen (s'.req i) c t → seen (s.req i) c t)
    (hs2 : ∀ i k c, esc (s.req i) k c → esc (s'.req i) k c ∨ k = l)
    (hs3 : ∀ i c, (s.req i).eng = .wi → (s.req i).ent c = .line l → (s.req i).updd c = false →
      esc (s'.req i) l c) :
    Dsk S s' m := by
  have hd : ∀ k c t, s'.dd k c t ↔
      (k ≠ l ∧ s.dd k c t) ∨ (k = l ∧ s.map l = some c ∧ s.dirty l t = true) := by
    intro k c t
    simp only [St.dd, e2, e3, upd_apply]
    by_cases q : k = l
    · subst q; simp
    · simp [q]
  constructor
  · intro k t
    rw [e2, e3]
    simp only [upd_apply]
    by_cases q : k = l
    · subst q
      simp only [if_true]
      intro a
      exact hi.glo.vm k t (hi.glo.dv k t a)
    · simp only [if_neg q]
      exact h.b0 k t
  · intro k c t a b
    rw [e4] at a; rw [e5] at b; rw [hd]
    by_cases q : k = l
    · subst q; exact Or.inl (Or.inr ⟨rfl, a, b⟩)
    · rcases h.b1 k c t a b with z | ⟨j, z⟩
      · exact Or.inl (Or.inl ⟨q, z⟩)
      · exact Or.inr ⟨j, (hw j k c t z).resolve_right q⟩
  · intro k c t a
    rw [hd] at a; rw [e4, e5]
    rcases a with ⟨q, a⟩ | ⟨q, a⟩
    · rcases h.b2 k c t a with z | ⟨j, z⟩
      · exact Or.inl z
      · exact Or.inr ⟨j, (hh j k c z).resolve_right q⟩
    · subst q; exact Or.inl a
  · intro k j c t u a b
    rw [hd] at a b
    rcases a with ⟨q, a⟩ | ⟨q, a⟩ <;> rcases b with ⟨q', b⟩ | ⟨q', b⟩
    · exact h.b3 k j c t u a b
    · subst q'
      rcases h.b6 k c t a with z | z
      · exact hi.glo.inj k j c z b.1
      · exact absurd b.1 (z j)
    · subst q
      rcases h.b6 j c u b with z | z
      · exact hi.glo.inj k j c a.1 z
      · exact absurd a.1 (z k)
    · rw [q, q']
  · intro k c t a
    rw [hd] at a; rw [e6]
    rcases a with ⟨q, a⟩ | ⟨q, a⟩
    · exact h.b4 k c t a
    · subst q; exact hi.glo.ad k c t a.1 a.2
  · intro c t a
    rw [e7]
    by_cases q : ∃ k, s.dd k c t
    · obtain ⟨k, q⟩ := q
      have hk : k = l := by
        by_cases z : k = l
        · exact z
        · exact absurd ((hd k c t).2 (Or.inl ⟨z, q⟩)) (a k)
      subst hk
      apply hi.glo.a2
      intro j hj
      by_cases z : j = k
      · subst z
        cases y : s.dirty j t with
        | false => exact y
        | true => exact absurd ((hd j c t).2 (Or.inr ⟨rfl, hj, y⟩)) (a j)
      · rcases h.b6 k c t q with y | y
        · exact absurd (hi.glo.inj j k c hj y) z
        · exact absurd hj (y j)
    · exact h.b5 c t fun k z => q ⟨k, z⟩
  · intro k c t a
    rw [hd] at a; rw [e4]
    rcases a with ⟨q, a⟩ | ⟨q, a⟩
    · exact h.b6 k c t a
    · subst q; exact Or.inl a.1
  · intro i k c t a b
    rw [hd] at b; rw [e6]
    have a' := hs1 i c t a
    rcases b with ⟨q, b⟩ | ⟨q, b⟩
    · rcases h.bk i k c t a' b with z | z
      · exact Or.inl z
      · exact Or.inr ((hs2 i k c z).resolve_right q)
    · subst q
      rcases (hi.loc i).sd c t k a'.1 a'.2.1 a'.2.2 b.1 b.2 with z | ⟨z1, z2, z3⟩
      · exact Or.inl z
      · exact Or.inr (hs3 i c z1 z2 z3)

/-- No write-invalidate lookup misses, and no line is mapped, while the copy on the
cache device still records dirty sectors of that core line. -/
def NoGhost (s : St D) (a : Act) : Prop :=
  ∀ c, ((∃ i, a = .miss i c ∧ wiLike (s.req i) ∧ (s.req i).disc = false) ∨
    ∃ l, a = .remap c l) → ∀ k t, ¬ s.dd k c t

/-- No request goes on with a metadata flush outstanding. -/
def NoQuit (s : St D) (a : Act) : Prop :=
  ∀ i, a = .quit i → ∀ c, (s.req i).need c = false

macro "d_loc " h:ident hi:ident i:ident : tactic => `(tactic| (
  have hw := (Inv.loc $hi $i).wf
  have w1 := hw.nd
  have w2 := hw.lkd
  have w3 := hw.ud
  have w4 := hw.eo
  have w5 := hw.fr
  clear hw
  apply Dsk.step0 $h $i rfl
  all_goals clear $h $hi
  all_goals generalize s.req $i = r at *
  d_auto))

theorem dsk_local {a : Act} {e : Ev D} (h : Dsk S s m) (hi : Inv S s m) (hF : Free s m)
    (hg : NoGhost s a) (hq : NoQuit s a) (hs : Step S s a e s') (he : e = .tau) : Dsk S s' m := by
  have hj := hi.glo.inj
  have b6 := h.b6
  cases hs
  case invC i _ => d_loc h hi i
  case look i c l h1 h2 h3 h4 =>
    have hj' : ∀ k, s.map k = some c → k = l := fun k z => hj k l c z h4
    d_loc h hi i
  case miss i c _ _ _ _ _ =>
    have hg' : wiLike (s.req i) → (s.req i).disc = false → ∀ k t, ¬ s.dd k c t :=
      fun z y => hg c (Or.inl ⟨i, rfl, z, y⟩)
    have hf := hF i c
    clear hg hF
    d_loc h hi i
  case grab i c l _ _ _ _ => d_loc h hi i
  case restart i e x _ _ _ => d_loc h hi i
  case goHit i _ _ _ _ => d_loc h hi i
  case goClean i _ _ _ => d_loc h hi i
  case goCore i _ _ _ _ => d_loc h hi i
  case goCoreWo i _ _ _ _ _ => d_loc h hi i
  case rdCache i _ _ _ _ _ _ => d_loc h hi i
  case rdCore i _ _ _ _ => d_loc h hi i
  case goOver i _ _ _ _ _ _ => d_loc h hi i
  case rdOver i _ _ _ _ _ _ => d_loc h hi i
  case cgrab i _ _ _ _ _ _ _ => d_loc h hi i
  case cfire i _ _ _ _ _ _ _ _ => d_loc h hi i
  case cskip i _ _ _ _ _ _ => d_loc h hi i
  case cend i _ _ _ =>
    have hn := hq i rfl
    d_loc h hi i
  case cendBg i _ _ =>
    have hn := hq i rfl
    d_loc h hi i
  case cerr i _ => d_loc h hi i
  case errFill i w d h1 h2 h3 =>
    have hw := (hi.loc i).wf
    obtain ⟨rfl, _⟩ := inv_dropGen hi i w d (Or.inr h1) (hw.p4 h1).1 (hw.p4 h1).2 h2 h3
    have w1 := hw.nd
    have w4 := hw.p4 h1
    apply Dsk.step1 h i
    case e1 => rfl
    case e2 => rfl
    case e3 => rfl
    case e4 => rfl
    case e5 => rfl
    case e6 => rfl
    case e7 => rfl
    case hok => exact fun _ _ _ _ z => z
    case hokc => exact fun _ _ _ z => z
    case hfr => exact fun _ _ _ _ _ z => z
    all_goals clear h hi hw h2 h3
    all_goals generalize s.req i = r at *
    d_auto
  case dnext i h1 h2 h3 =>
    have hn := hq i rfl
    have hp : (s.req i).pc ≠ .free := by rcases h3 with q | q <;> simp [q]
    have hf : ∀ c t, (s.req i).has c t = true → ∀ v, m.fresh c t v :=
      fun c t a => hF i c t ⟨by simp [h2, Eng.isWr], hp, a⟩ h1
    apply Dsk.step0 h i rfl
    all_goals clear h hi hF
    all_goals generalize s.req i = r at *
    d_auto
  case dcore i c t v h1 h2 h3 h4 h5 =>
    have hW : W (s.req i) c t := ⟨by simp [h2, Eng.isWr], by simp [h3], h5⟩
    have hok : m.ok c t v := (hi.loc i).n2 c t v hW (hF i c t hW h1 v)
    refine ⟨h.b0, h.b1, h.b2, h.b3, h.b4, ?_, h.b6, h.bk⟩
    intro d u a
    simp only [upd2_apply]
    split
    · next q => rw [q.1, q.2]; exact hok
    · exact h.b5 d u a
  case unmapFree l h1 h2 =>
    have h8 : ∀ t, s.dirty l t = false := by
      intro t
      cases q : s.dirty l t with
      | false => rfl
      | true => have := hi.glo.dv l t q; simp only [env] at this; rw [h1 t] at this; cases this
    have hn : ∀ d t, ¬ s.dd l d t := by
      intro d t z
      rcases h.b2 l d t z with q | ⟨j, q⟩
      · rw [h8 t] at q; exact absurd q.2 (by simp)
      · exact h2 j ⟨d, q.1⟩
    apply Dsk.step2 h 0 (s.req 0)
    case e1 => funext j; simp only [upd_apply]; split <;> simp_all
    case e2 => rfl
    case e3 => rfl
    case hca => exact fun _ _ _ _ => Or.inl rfl
    case hco => exact fun _ _ => Or.inl rfl
    case hh => exact fun _ _ z => z
    case hw => exact fun _ _ _ z => z
    case hs => exact fun _ _ _ z _ => Or.inl ⟨z, Or.inl⟩
    all_goals clear h hi hg hj b6 h2
    case hb1 => intro k d t; simp only [upd_apply]; have := h8 t; grind
    case hb2 => intro k d t a b e; have := hn d t; simp only [upd_apply]; grind
    case hb6 => intro k d t a b; have := hn d t; simp only [upd_apply]; grind
  case pass2 i _ _ _ _ =>
    have hs0 := h.bk i
    have hr := (hi.loc i).wf.rd
    have ho := (hi.loc i).wf.ho
    d_loc h hi i
  case goWrite i p w _ _ _ _ _ =>
    have hw := (hi.loc i).wf
    have w2 := hw.lkd
    have w1 := hw.nd
    apply Dsk.step1 h i
    case e1 => rfl
    case e2 => rfl
    case e3 => rfl
    case e4 => rfl
    case e5 => rfl
    case e6 => rfl
    case e7 => rfl
    case hok => exact fun _ _ _ _ z => z
    case hokc => exact fun _ _ _ z => z
    case hfr => exact fun _ _ _ _ _ z => z
    all_goals clear h hi hw
    all_goals generalize s.req i = r at *
    d_auto
  case fillEnd i w _ _ _ =>
    have hw := (hi.loc i).wf
    have w1 := hw.nd
    apply Dsk.step1 h i
    case e1 => rfl
    case e2 => rfl
    case e3 => rfl
    case e4 => rfl
    case e5 => rfl
    case e6 => rfl
    case e7 => rfl
    case hok => exact fun _ _ _ _ z => z
    case hokc => exact fun _ _ _ z => z
    case hfr => exact fun _ _ _ _ _ z => z
    all_goals clear h hi hw
    all_goals generalize s.req i = r at *
    d_auto
  case remap i c l h1 h2 h3 h4 h5 h6 h7 h8 =>
    have hn : ∀ d t, ¬ s.dd l d t := by
      intro d t z
      rcases h.b2 l d t z with q | ⟨j, q⟩
      · rw [h8 t] at q; exact absurd q.2 (by simp)
      · exact h7 j ⟨d, q.1⟩
    have hn2 : ∀ k t, ¬ s.dd k c t := hg c (Or.inr ⟨l, rfl⟩)
    have hw := (hi.loc i).wf
    have w1 := hw.nd
    apply Dsk.step2 h i
    case e1 => rfl
    case e2 => rfl
    case e3 => rfl
    case hca => exact fun _ _ _ _ => Or.inl rfl
    case hco => exact fun _ _ => Or.inl rfl
    all_goals clear h hi hw hg hj b6 h7
    all_goals generalize s.req i = r at *
    d_auto
    case hb1 => intro k d t; simp only [upd_apply]; have := h8 t; grind
    case hb2 => intro k d t a b e; have := hn d t; simp only [upd_apply]; grind
    case hb6 => intro k d t a b; have := hn d t; have := hn2 k t; simp only [upd_apply]; grind
  case drop i c l h1 h2 h3 h4 h5 h6 =>
    have hw := (hi.loc i).wf
    have w2 := hw.lkd h1
    have h8 : ∀ t, s.dirty l t = false := by
      intro t
      cases q : s.dirty l t with
      | false => rfl
      | true => have := hi.glo.dv l t q; simp only [env] at this; rw [h5 t] at this; cases this
    have hn : ∀ d t, ¬ s.dd l d t := by
      intro d t z
      rcases h.b2 l d t z with q | ⟨j, q⟩
      · rw [h8 t] at q; exact absurd q.2 (by simp)
      · by_cases hji : j = i
        · subst hji; have := (w2 d).2.1; rw [q.2] at this; cases this
        · exact h6 j hji ⟨d, q.1⟩
    have w1 := hw.nd
    apply Dsk.step2 h i
    case e1 => rfl
    case e2 => rfl
    case e3 => rfl
    case hca => exact fun _ _ _ _ => Or.inl rfl
    case hco => exact fun _ _ => Or.inl rfl
    all_goals clear h hi hw hg hj b6 h6
    all_goals generalize s.req i = r at *
    d_auto
    case hb1 => intro k d t; simp only [upd_apply]; have := h8 t; grind
    case hb2 => intro k d t a b e; have := hn d t; simp only [upd_apply]; grind
    case hb6 => intro k d t a b; have := hn d t; simp only [upd_apply]; grind
  case unmap i c l h1 h2 h3 h4 h5 h6 h7 =>
    have hw := (hi.loc i).wf
    have h8 : ∀ t, s.dirty l t = false := by
      intro t
      cases q : s.dirty l t with
      | false => rfl
      | true => have := hi.glo.dv l t q; simp only [env] at this; rw [h6 t] at this; cases this
    have hml : s.map l = some c := ((hi.loc i).link c l h3).1 h5
    apply Dsk.step2 h i
    case e1 => rfl
    case e2 => rfl
    case e3 => rfl
    case hca => exact fun _ _ _ _ => Or.inl rfl
    case hco => exact fun _ _ => Or.inl rfl
    all_goals clear h hi hw hg b6 h7
    all_goals generalize s.req i = r at *
    d_auto
    case hb1 => intro k d t; simp only [upd_apply]; have := h8 t; grind
    case hb2 => intro k d t a b e; have := h8 t; simp only [upd_apply]; grind
    case hb6 =>
      intro k d t a b
      have := hj k l
      have := fun k => hj k l c
      simp only [env] at *
      simp only [upd_apply]; grind
  case wCore i c t h1 h2 =>
    have hl := hi.loc i
    have hW : W (s.req i) c t := ⟨hl.wf.p5 h1, by simp [h1], (hl.wf.tx h1 c t).2 h2⟩
    have hok := hl.n2 c t _ hW (hl.n1 c t hW)
    apply Dsk.step2 h i
    case e1 => rfl
    case e2 => rfl
    case e3 => rfl
    case hb1 => exact fun _ _ _ a b => Or.inl ⟨a, b⟩
    case hb2 => exact fun _ _ _ _ a b => Or.inl ⟨a, b⟩
    case hb6 => exact fun _ _ _ _ z => z
    case hca => exact fun _ _ _ _ => Or.inl rfl
    case hco => intro d u; simp only [env] at hok; simp only [upd2_apply]; grind
    d_auto
  case cwrite i c t h1 h2 =>
    have hl := hi.loc i
    obtain ⟨l, hel⟩ := hl.wf.fi c (hl.wf.wk c t h2).2
    have hml : s.map l = some c := hl.mapped hel (Or.inr (by simp [h1]))
    have c1 := hl.c1 c l t hel h2
    have hh : s.holds i c l :=
      ⟨hel, (hl.wf.rd (by simp [h1]) c (hl.wf.eo c (by simp [hel]))).2 l hel⟩
    have hok := hi.okCache hh (Or.inr (by simp [h1])) hml c1.2
    apply Dsk.step2 h i
    case e1 => rfl
    case e2 => rfl
    case e3 => rfl
    case hb1 => exact fun _ _ _ a b => Or.inl ⟨a, b⟩
    case hb2 => exact fun _ _ _ _ a b => Or.inl ⟨a, b⟩
    case hb6 => exact fun _ _ _ _ z => z
    case hca => exact fun _ _ _ _ => Or.inl rfl
    case hco => intro d u; simp only [env] at c1; simp only [upd2_apply]; grind
    d_auto
  case wCache i c t l h1 h2 h3 =>
    have hl := hi.loc i
    have tx := (hl.wf.tx h1 c t).1 h2
    have hW : W (s.req i) c t := ⟨hl.wf.p5 h1, by simp [h1], tx.1⟩
    have hf : m.fresh c t ((s.req i).data c t) := hl.n1 c t hW
    have hok : m.ok c t ((s.req i).data c t) := hl.n2 c t _ hW hf
    obtain ⟨k, x1, x2, x3⟩ := hi.xferLine hW tx.2 h1
    have hk : l = k := by have := x1.1; rw [h3] at this; cases this; rfl
    subst hk
    have hsame := fun d u => h.same hi (c' := d) (t := u) x1 x3 x2
    apply Dsk.step2 h i
    case e1 => rfl
    case e2 => rfl
    case e3 => rfl
    case hb1 => exact fun _ _ _ a b => Or.inl ⟨a, b⟩
    case hb2 => exact fun _ _ _ _ a b => Or.inl ⟨a, b⟩
    case hb6 => exact fun _ _ _ _ z => z
    case hco => exact fun _ _ => Or.inl rfl
    case hca =>
      intro k d u a
      simp only [upd2_apply]
      by_cases q : k = l ∧ u = t
      · rw [if_pos q]
        obtain ⟨rfl, rfl⟩ := q
        obtain rfl := hsame d u a
        exact Or.inr ⟨hok, fun _ _ => Or.inl hf⟩
      · rw [if_neg q]; exact Or.inl rfl
    d_auto
  case fill i c t l v h1 h2 h3 h4 =>
    have hl := hi.loc i
    have p4 := hl.wf.p4 h1
    have hml : s.map l = some c := hl.mapped h3 (Or.inr (by simp [h1]))
    have hh : s.holds i c l :=
      ⟨h3, (hl.wf.rd (by simp [h1]) c (hl.wf.eo c (by simp [h3]))).2 l h3⟩
    have hn : ∀ d u, ¬ s.dd l d u := by
      intro d u a
      obtain rfl := h.same hi hh p4.2 hml a
      have hnd : (s.req i).need d = false := by
        cases q : (s.req i).need d with
        | false => rfl
        | true => have := hl.wf.nd d q; rw [h1] at this; simp at this
      have := (h.own hi hh p4.2 hnd a).2
      have q := hl.nd d l u h3 (Or.inr (Or.inl h1))
      simp only [env] at q
      rw [this] at q; cases q
    apply Dsk.step2 h i
    case e1 => rfl
    case e2 => rfl
    case e3 => rfl
    case hb1 => exact fun _ _ _ a b => Or.inl ⟨a, b⟩
    case hb2 => exact fun _ _ _ _ a b => Or.inl ⟨a, b⟩
    case hb6 => exact fun _ _ _ _ z => z
    case hco => exact fun _ _ => Or.inl rfl
    case hca =>
      intro k d u a
      simp only [upd2_apply]
      by_cases q : k = l ∧ u = t
      · obtain ⟨rfl, rfl⟩ := q; exact absurd a (hn d u)
      · rw [if_neg q]; exact Or.inl rfl
    d_auto
  case cmark i c l n h1 h2 h3 h4 h5 h6 =>
    have hl := hi.loc i
    have hml : s.map l = some c := hl.mapped h2 (Or.inr (by simp [h1]))
    have hnd : (s.req i).need c = false := by
      cases q : (s.req i).need c with
      | false => rfl
      | true => have := hl.wf.nd c q; rw [h1, h4] at this; simp at this
    have w3 := hl.wf.ud
    apply Dsk.step2 h i
    case e1 => rfl
    case e2 => rfl
    case e3 => rfl
    case hb6 => exact fun _ _ _ _ z => z
    case hca => exact fun _ _ _ _ => Or.inl rfl
    case hco => exact fun _ _ => Or.inl rfl
    all_goals clear h hi hl hg b6 hj
    all_goals generalize s.req i = r at *
    d_auto
    case hb1 => intro k d u; grind
    case hb2 => intro k d u; simp only [hold]; have := fun z => h6 z u; grind
  case update i c l n h1 h2 h3 h4 h5 h6 =>
    have hl := hi.loc i
    have hm := hl.link c l h4
    have hg0 : (s.req i).gone c = false := by
      cases q : (s.req i).gone c with
      | false => rfl
      | true => have := (hl.wf.gn c q).1; rw [h5] at this; cases this
    have hml : s.map l = some c := hm.1 hg0
    have hh : s.holds i c l :=
      ⟨h4, (hl.wf.rd (by simp [h1]) c (hl.wf.eo c (by simp [h4]))).2 l h4⟩
    have hx := hi.wrExcl (hl.wf.p5 h1) (by simp [h1])
    have hnd : (s.req i).need c = false := by
      cases q : (s.req i).need c with
      | false => rfl
      | true => have := hl.wf.nd c q; rw [h1, h5] at this; simp at this
    have ho := fun t => h.own hi (t := t) hh hx hnd
    have ho1 := fun t => h.own1 hi (t := t) hh hx hnd hml
    have w3 := hl.wf.ud
    have uq := hl.uniq
    apply Dsk.step2 h i
    case e1 => rfl
    case e2 => rfl
    case e3 => rfl
    case hb6 => exact fun _ _ _ _ z => z
    case hca => exact fun _ _ _ _ => Or.inl rfl
    case hco => exact fun _ _ => Or.inl rfl
    all_goals clear h hi hl hg b6 hj hm hh
    all_goals generalize s.req i = r at *
    d_auto
    case hb1 => intro k d u; simp only [holdw]; have := fun z => h6 z u; have := ho1 u; grind
    case hb2 => intro k d u; simp only [hold]; have := fun z => h6 z u; grind
  case flush i c l h1 h2 =>
    have uq := (hi.loc i).uniq
    have hnd := (hi.loc i).wf.nd
    refine h.sync hi l rfl rfl rfl rfl rfl rfl ?_ ?_ ?_ ?_ ?_
    all_goals clear h hg b6 hj hi
    all_goals intro j
    all_goals simp only [upd_apply]
    all_goals by_cases q : j = i
    all_goals simp only [q, if_true, if_false]
    all_goals generalize s.req i = r at *
    all_goals simp only [hold, holdw, seen, esc, W, wiLike]
    all_goals grind
  case persist l =>
    exact h.sync hi l rfl rfl rfl rfl rfl rfl (fun _ _ _ => Or.inl) (fun _ _ _ _ => Or.inl)
      (fun _ _ _ z => z) (fun _ _ _ => Or.inl) (fun _ _ a b d => ⟨a, b, Or.inl d⟩)
  all_goals cases he

theorem dsk_invR (h : Dsk S s m) (hi : Inv S s m) {i : Nat} {r : Req D} {e : Eng} {x : Bool}
    (h1 : (s.req i).pc = .free) (h2 : e.isRd = true) (hm : m.Next (.callR i r.has) m') :
    Dsk S (s.setReq i (Req.fresh r e .look x)) m' := by
  cases hm
  have w1 := (hi.loc i).wf.nd
  apply Dsk.step1 h i
  case e1 => rfl
  case e2 => rfl
  case e3 => rfl
  case e4 => rfl
  case e5 => rfl
  case e6 => rfl
  case e7 => rfl
  case hok => exact fun _ _ _ _ z => z
  case hokc => exact fun _ _ _ z => z
  case hfr => exact fun _ _ _ _ _ z => z
  all_goals clear h hi
  all_goals generalize s.req i = r at *
  d_auto

theorem dsk_invW (h : Dsk S s m) (hi : Inv S s m) {i : Nat} {r : Req D} {e : Eng}
    (h1 : (s.req i).pc = .free) (h2 : e = .wt ∨ e = .wb ∨ e = .wi)
    (hm : m.Next (.callW i r.has r.data) m') :
    Dsk S (s.setReq i (Req.fresh r e .look true)) m' := by
  have hb : ∀ j c t, W (s.req j) c t → m.busy c t := by
    intro j c t a
    exact ⟨j, (hi.mw j c t).2 a⟩
  cases hm
  have w1 := (hi.loc i).wf.nd
  apply Dsk.step1 h i
  case e1 => rfl
  case e2 => rfl
  case e3 => rfl
  case e4 => rfl
  case e5 => rfl
  case e6 => rfl
  case e7 => rfl
  case hok => exact fun _ _ _ _ z => Or.inl z
  case hokc => exact fun _ _ _ z => Or.inl z
  case hfr =>
    intro j c t v a b
    have := hb j c t a
    clear h hi
    grind
  all_goals clear h hi
  all_goals generalize s.req i = r at *
  d_auto

theorem dsk_invD (h : Dsk S s m) (hi : Inv S s m) {i : Nat} {r : Req D}
    (h1 : (s.req i).pc = .free) (hm : m.Next (.callD i r.has) m') :
    Dsk S (s.setReq i (Req.fresh r .wi2 .look true)) m' := by
  cases hm
  have w1 := (hi.loc i).wf.nd
  apply Dsk.step1 h i
  case e1 => rfl
  case e2 => rfl
  case e3 => rfl
  case e4 => rfl
  case e5 => rfl
  case e6 => rfl
  case e7 => rfl
  case hok => exact fun _ _ _ _ z => Or.inl z
  case hokc => exact fun _ _ _ z => Or.inl z
  case hfr => exact fun _ _ _ _ _ z => Or.inl z
  case hs => exact fun _ _ _ a _ => Or.inr (Or.inl (Or.inr a.1.2.2))
  case hh => rintro l c ⟨_, b⟩; rcases (w1 c b).2.2 with q | q <;> rw [h1] at q <;> cases q.1
  case hw => rintro l c t ⟨_, b, _⟩; rcases (w1 c b).2.2 with q | q <;> rw [h1] at q <;> cases q.1

theorem dsk_ret (h : Dsk S s m) (hi : Inv S s m) {i : Nat} {r : Req D} {x : Nat → Nat → Option D}
    (h1 : (s.req i).eng.isRd = true) (h2 : (s.req i).pc ≠ .clean) (h3 : r.eng.isWr = false)
    (hm : m.Next (.retR i x) m') : Dsk S (s.setReq i r) m' := by
  cases hm
  have w1 := (hi.loc i).wf.nd
  have w2 := (hi.loc i).wf.p5
  apply Dsk.step1 h i
  case e1 => rfl
  case e2 => rfl
  case e3 => rfl
  case e4 => rfl
  case e5 => rfl
  case e6 => rfl
  case e7 => rfl
  case hok => exact fun _ _ _ _ z => z
  case hokc => exact fun _ _ _ z => z
  case hfr => exact fun _ _ _ _ _ z => z
  case hh =>
    rintro l c ⟨a, b⟩
    rcases (w1 c b).2.2 with q | q
    · exact absurd q.1 h2
    · have := w2 q.1
      cases q : (s.req i).eng <;> simp_all [Eng.isWr, Eng.isRd]
  case hw =>
    rintro l c t ⟨a, b, -⟩
    rcases (w1 c b).2.2 with q | q
    · exact absurd q.1 h2
    · have := w2 q.1
      cases q : (s.req i).eng <;> simp_all [Eng.isWr, Eng.isRd]
  case hs =>
    intro l c t a
    have := a.1.1
    rw [h3] at this; cases this

theorem dsk_ack (h : Dsk S s m) (hi : Inv S s m) {i : Nat}
    (h1 : (s.req i).pc = .xfer)
    (h2 : ∀ d t, (s.req i).toCache d t = false) (h3 : ∀ d t, (s.req i).toCore d t = false)
    (h4 : ∀ c l, (s.req i).on c = true → (s.req i).ent c = .line l →
        (s.req i).updd c = true ∧ (s.req i).need c = false)
    (h5 : (s.req i).eng = .wi → ∀ c, (s.req i).on c = true → (s.req i).ent c ≠ .none)
    (hm : m.Next (.ackW i) m') :
    Dsk S (s.setReq i (s.req i).done) m' := by
  cases hm
  have hl := hi.loc i
  have hw := hl.wf
  have hwr := hw.p5 h1
  have hexcl := hi.wrExcl hwr (by simp [h1])
  have hcov : ∀ c t, m.wr i c t = false ↔ ¬ W (s.req i) c t := by
    intro c t
    rw [← hi.mw i c t, Bool.not_eq_true]
  have heng : wiLike (s.req i) ∨ (s.req i).eng = .wt ∨ (s.req i).eng = .wb := by
    cases q : (s.req i).eng <;> simp_all [Eng.isWr, wiLike]
  have hline : ∀ c t, W (s.req i) c t → ((s.req i).eng = .wt ∨ (s.req i).eng = .wb) →
      ∃ l, s.holds i c l ∧ s.map l = some c ∧ s.cache l t = (s.req i).data c t ∧
        (s.req i).need c = false ∧
        ((s.req i).eng = .wb → s.dirty l t = true) ∧ ((s.req i).eng = .wt → s.dirty l t = false) := by
    intro c t a b
    obtain ⟨l, x1, x2, x3⟩ := hi.xferLine a b h1
    have hu := h4 c l (hw.ho c t a.2.2) x1.1
    have := hl.wud c l t a hu.1 x1.1
    exact ⟨l, x1, x2, hl.wca c l t a b h1 (h2 c t) x1.1, hu.2, this.1, fun z => (this.2 z).1⟩
  have hcache : ∀ l c t, W (s.req i) c t → s.dd l c t → m.fresh c t (s.cache l t) := by
    intro l c t a b
    rcases heng with q | q
    · have hon := hw.ho c t a.2.2
      have hrd := hw.rd (by simp [h1]) c hon
      rcases h.bk i l c t ⟨a, q, Or.inr hrd.1⟩ b with z | ⟨z1, z2, z3⟩
      · exact z
      · have := h4 c l hon z2
        rw [this.1, this.2] at z3; simp at z3
    · obtain ⟨k, x1, x2, x3, x4, x5, x6⟩ := hline c t a q
      have hk : l = k := by
        rcases h.b6 l c t b with z | z
        · exact hi.glo.inj l k c z x2
        · exact absurd x2 (z k)
      subst hk
      rw [x3]
      exact hl.n1 c t a
  have hcore : ∀ c t, W (s.req i) c t → (∀ l, ¬ s.dd l c t) → m.fresh c t (s.core c t) := by
    intro c t a b
    rcases heng with q | q | q
    · refine hl.wcr c t a ?_
      rcases q with q | q
      · exact Or.inr ⟨q, h1, h3 c t⟩
      · exact Or.inl q
    · exact hl.wt c t a q h1 (h3 c t)
    · obtain ⟨k, x1, x2, x3, x4, x5, x6⟩ := hline c t a (Or.inr q)
      exact absurd (h.own1 hi x1 hexcl x4 x2 (x5 q)) (b k)
  apply Dsk.step1 h i
  case e1 => rfl
  case e2 => rfl
  case e3 => rfl
  case e4 => rfl
  case e5 => rfl
  case e6 => rfl
  case e7 => rfl
  case hok =>
    intro l c t a b
    show if m.wr i c t = false then _ else _
    by_cases q : W (s.req i) c t
    · rw [if_neg fun z => (hcov c t).1 z q]; exact hcache l c t q a
    · rw [if_pos ((hcov c t).2 q)]; exact b
  case hokc =>
    intro c t a b
    show if m.wr i c t = false then _ else _
    by_cases q : W (s.req i) c t
    · rw [if_neg fun z => (hcov c t).1 z q]; exact hcore c t q a
    · rw [if_pos ((hcov c t).2 q)]; exact b
  case hfr => exact fun _ _ _ _ _ z => z
  case hh =>
    rintro l c ⟨a, b⟩
    have := (h4 c l (hw.eo c (by simp [a])) a).2
    rw [this] at b; cases b
  case hw =>
    rintro l c t ⟨a, b, -⟩
    have := (h4 c l (hw.eo c (by simp [a])) a).2
    rw [this] at b; cases b
  case hs =>
    intro l c t a
    have := a.1.2.1
    simp [Req.done, Req.fresh] at this

theorem dsk_done (h : Dsk S s m) {i : Nat} (hq : ∀ c, (s.req i).need c = false) :
    Dsk S (s.setReq i (s.req i).done) m := by
  apply Dsk.step0 h i rfl
  all_goals clear h
  all_goals generalize s.req i = r at *
  d_auto

/-- The events of errors change nothing of what the device's copy is compared with. -/
theorem dsk_err (h : Dsk S s m) {i : Nat} (hm : m.Next (.errR i) m' ∨ m.Next (.errW i) m') :
    Dsk S s m' := by
  rcases hm with hm | hm <;> cases hm <;>
    exact ⟨h.b0, h.b1, h.b2, h.b3, h.b4, h.b5, h.b6, h.bk⟩

theorem dsk_errMiss (h : Dsk S s m) (hi : Inv S s m) {i : Nat} {w d : Nat → Nat → Bool}
    (h1 : (s.req i).pc = .oread) (h2 : (s.req i).eng = .gen)
    (h3 : (s.req i).excl = true) (h4 : (s.req i).purged s.valid w)
    (h5 : (s.req i).purged s.dirty d) (hm : m.Next (.errR i) m') :
    Dsk S { s with valid := w, dirty := d, req := upd s.req i (s.req i).done } m' := by
  obtain ⟨rfl, _⟩ := inv_dropGen hi i w d (Or.inl h1) h2 h3 h4 h5
  have w1 := (hi.loc i).wf.nd
  have h' : Dsk S { s with valid := w } m :=
    ⟨h.b0, h.b1, h.b2, h.b3, h.b4, h.b5, h.b6, h.bk⟩
  refine dsk_err (dsk_done h' (i := i) ?_) (Or.inl hm)
  intro c
  show (s.req i).need c = false
  cases q : (s.req i).need c with
  | false => rfl
  | true => have := w1 c q; rw [h1] at this; simp at this

theorem dsk_clear (h : Dsk S s m) (hi : Inv S s m) {i : Nat} {w d : Nat → Nat → Bool}
    (h1 : (s.req i).pc = .xfer) (h2 : (s.req i).eng = .wt ∨ (s.req i).eng = .wb)
    (h3 : ∀ c, (s.req i).updd c = false)
    (h5 : (s.req i).purged s.dirty d)
    (h6 : ∀ c l t, (s.req i).has c t = true → (s.req i).ent c = .line l →
      s.dirty l t = false) :
    (∀ c, (s.req i).need c = false) ∧
    Dsk S { s with valid := w, dirty := d, req := upd s.req i (asWi (s.req i)) } m := by
  have hl := hi.loc i
  have hw := hl.wf
  have hwr := hw.p5 h1
  have hexcl := hi.wrExcl hwr (by simp [h1])
  have hnd : ∀ c, (s.req i).need c = false := by
    intro c
    cases q : (s.req i).need c with
    | false => rfl
    | true =>
      rcases (hw.nd c q).2.2 with z | z
      · rw [h1] at z; cases z.1
      · rw [h3] at z; cases z.2
  refine ⟨hnd, ?_⟩
  have hdd : d = s.dirty := by
    funext l t
    have := h5 l t
    cases q : s.dirty l t with
    | false => cases q' : d l t with
      | false => rfl
      | true => rw [q, q'] at this; simp at this
    | true =>
      rw [this]
      refine ⟨q, ?_⟩
      rintro ⟨c, b, a⟩
      rw [h6 c l t b a] at q; cases q
  subst hdd
  apply Dsk.step1 h i
  case e1 => rfl
  case e2 => rfl
  case e3 => rfl
  case e4 => rfl
  case e5 => rfl
  case e6 => rfl
  case e7 => rfl
  case hok => exact fun _ _ _ _ z => z
  case hokc => exact fun _ _ _ z => z
  case hfr => exact fun _ _ _ _ _ z => z
  case hh => rintro l c ⟨a, b⟩; rw [hnd c] at b; cases b
  case hw => rintro l c t ⟨a, b, _⟩; rw [hnd c] at b; cases b
  case hs =>
    intro l c t a b
    have hW : W (s.req i) c t := ⟨hwr, by simp [h1], a.1.2.2⟩
    obtain ⟨k, x1, x2, _⟩ := hi.xferLine hW h2 h1
    have hk : l = k := by
      rcases h.b6 l c t b with z | z
      · exact hi.glo.inj l k c z x2
      · exact absurd x2 (z k)
    subst hk
    have := (h.own hi x1 hexcl (hnd c) b).2
    rw [h6 c l t hW.2.2 x1.1] at this
    cases this

theorem dsk_rest (h : Dsk S s m) (hi : Inv S s m) (i : Nat) (h1 : (s.req i).pc = .free)
    (r' : Req D) : Dsk S (s.setReq i r'.done) m := by
  have w1 := (hi.loc i).wf.nd
  apply Dsk.step0 h i rfl
  all_goals clear h hi
  all_goals generalize s.req i = r at *
  d_auto

theorem dsk_errWr (h : Dsk S s m) (hi : Inv S s m) {i : Nat} {w d : Nat → Nat → Bool}
    (h1 : (s.req i).pc = .xfer) (h2 : (s.req i).eng = .wt ∨ (s.req i).eng = .wb)
    (h3 : ∀ c, (s.req i).updd c = false)
    (h4 : (s.req i).purged s.valid w) (h5 : (s.req i).purged s.dirty d)
    (h6 : ∀ c l t, (s.req i).has c t = true → (s.req i).ent c = .line l →
      s.dirty l t = false)
    (hm : m.Next (.errW i) m') :
    Dsk S { s with valid := w, dirty := d, req := upd s.req i (s.req i).done } m' := by
  have hnd := (dsk_clear (w := w) h hi h1 h2 h3 h5 h6).1
  have a := inv_clear hi i w d h1 h2 h3 h4 h5 (fun c l t x y => Or.inl (h6 c l t x y))
  have b := inv_errW a i (by simp [upd_apply, asWi, Eng.isWr])
    (by intro l c t z; have := z.2.2.2.1; simp [upd_apply, asWi] at this) hm
  have a' := (dsk_clear (w := w) h hi h1 h2 h3 h5 h6).2
  have b' := dsk_err (dsk_done a' (i := i) (by simpa [upd_apply, asWi] using hnd)) (Or.inr hm)
  have c := dsk_rest b' b i (by simp [St.setReq, upd_apply, Req.done, Req.fresh]) (s.req i)
  rw [setReq_setReq] at c
  have e : ∀ j, upd (upd s.req i (asWi (s.req i))) i (s.req i).done j = upd s.req i (s.req i).done j := by
    intro j; simp only [upd_apply]; split <;> rfl
  simp only [St.setReq, funext e] at c
  exact c

theorem dsk_ackErr (h : Dsk S s m) (hi : Inv S s m) {i : Nat} {w d : Nat → Nat → Bool}
    (h1 : (s.req i).pc = .xfer) (h2 : (s.req i).eng = .wt)
    (h2' : ∀ c t, (s.req i).toCore c t = false)
    (h3 : ∀ c, (s.req i).updd c = false)
    (h4 : (s.req i).purged s.valid w) (h5 : (s.req i).purged s.dirty d)
    (h6 : ∀ c l t, (s.req i).has c t = true → (s.req i).ent c = .line l →
      s.dirty l t = false)
    (hm : m.Next (.ackW i) m') :
    Dsk S { s with valid := w, dirty := d, req := upd s.req i (s.req i).done } m' := by
  have hw := (hi.loc i).wf
  have hent : ∀ c, (s.req i).on c = true → ∃ l, (s.req i).ent c = .line l := by
    intro c a
    have x := (hw.rd (by simp [h1]) c a).1
    have y := hw.mp (by simp [h2]) c
    cases q : (s.req i).ent c with
    | unseen => exact absurd q x
    | none => exact absurd q y
    | line l => exact ⟨l, rfl⟩
  have hnd := (dsk_clear (w := w) h hi h1 (Or.inl h2) h3 h5 h6).1
  have a' := (dsk_clear (w := w) h hi h1 (Or.inl h2) h3 h5 h6).2
  have a := inv_clear hi i w d h1 (Or.inl h2) h3 h4 h5 (fun c l t _ _ => Or.inr ⟨h2, h2' c t⟩)
  have b := inv_settle a i (by simp [upd_apply, asWi, h1]) (by simp [upd_apply, asWi])
    (by intro c t; simp [upd_apply, asWi, h2, h2']) (by intro c t; simp [upd_apply, asWi])
    (by intro c; simp [upd_apply, asWi, h3])
    (by intro c; simpa [upd_apply, asWi] using hent c)
    (by
      intro c l t x y
      simp only [upd_apply, asWi, if_true] at x y
      have z1 := h4 l t
      have z2 := h5 l t
      show w l t = false ∧ d l t = false
      constructor
      · cases q : w l t with
        | false => rfl
        | true => exact absurd ⟨c, x, y⟩ (z1.1 q).2
      · cases q : d l t with
        | false => rfl
        | true => exact absurd ⟨c, x, y⟩ (z2.1 q).2)
  generalize hs1 : ({ s with valid := w, dirty := d, req := upd s.req i (asWi (s.req i)) } : St D) = s1
    at a a' b
  have hr1 : s1.req i = asWi (s.req i) := by rw [← hs1]; simp [upd_apply]
  have hdd : ∀ l c t, W (s.req i) c t → ¬ s1.dd l c t := by
    intro l c t hW z
    have z' : s.dd l c t := by rw [← hs1] at z; exact z
    have hexcl := hi.wrExcl hW.1 hW.2.1
    obtain ⟨k, x1, x2, _⟩ := hi.xferLine hW (Or.inl h2) h1
    have hk : l = k := by
      rcases h.b6 l c t z' with q | q
      · exact hi.glo.inj l k c q x2
      · exact absurd x2 (q k)
    subst hk
    have := (h.own hi x1 hexcl (hnd c) z').2
    rw [h6 c l t hW.2.2 x1.1] at this
    cases this
  have b0 : Dsk S (s1.setReq i { s1.req i with updd := (s1.req i).on }) m := by
    apply Dsk.step0 a' i rfl
    case hh => rintro l c ⟨x, y⟩; rw [hr1] at y; simp only [asWi] at y; rw [hnd c] at y; cases y
    case hw => rintro l c t ⟨x, y, _⟩; rw [hr1] at y; simp only [asWi] at y; rw [hnd c] at y; cases y
    case hs =>
      intro l c t x y
      refine absurd y (hdd l c t ⟨hw.p5 h1, by simp [h1], ?_⟩)
      have := x.1.2.2
      rw [hr1] at this
      exact this
  have b' := dsk_ack b0 b (i := i) (by simp [upd_apply, St.setReq, hr1, asWi, h1])
    (by intro c t; simp [upd_apply, St.setReq, hr1, asWi])
    (by intro c t; simp [upd_apply, St.setReq, hr1, asWi, h2, h2'])
    (by intro c l x y; simp [upd_apply, St.setReq, hr1, asWi] at x y ⊢; exact ⟨x, hnd c⟩)
    (by
      intro _ c x
      simp [upd_apply, St.setReq, hr1, asWi] at x ⊢
      obtain ⟨l, hl⟩ := hent c x
      simp [hl]) hm
  have b2 := inv_ack b i (by simp [upd_apply, St.setReq, hr1, asWi, h1])
    (by intro c t; simp [upd_apply, St.setReq, hr1, asWi])
    (by intro c t; simp [upd_apply, St.setReq, hr1, asWi, h2, h2'])
    (by intro c l x y; simp [upd_apply, St.setReq, hr1, asWi] at x y ⊢; exact ⟨x, hnd c⟩)
    (by
      intro _ c x
      simp [upd_apply, St.setReq, hr1, asWi] at x ⊢
      obtain ⟨l, hl⟩ := hent c x
      simp [hl]) hm
  have c := dsk_rest b' b2 i (by simp [St.setReq, upd_apply, Req.done, Req.fresh]) (s.req i)
  rw [setReq_setReq, setReq_setReq] at c
  have e : ∀ j, upd (upd s.req i (asWi (s.req i))) i (s.req i).done j = upd s.req i (s.req i).done j := by
    intro j; simp only [upd_apply]; split <;> rfl
  rw [← hs1] at c
  simp only [St.setReq, funext e] at c
  exact c

/-- Power failure and restart. -/
theorem inv_crash (h : Dsk S s m) {f : Nat → Option Nat}
    (h1 : ∀ l, (∃ t, s.ddirty l t = true) → f l = s.dmap l)
    (h2 : ∀ l, (∀ t, s.ddirty l t = false) → f l = none) (hm : m.Next .crash m') :
    Inv S { s with map := f, valid := s.ddirty, dirty := s.ddirty
                   req := fun i => (s.req i).done } m' := by
  cases hm
  have hf : ∀ l c, f l = some c → ∃ t, s.dd l c t := by
    intro l c a
    by_cases q : ∃ t, s.ddirty l t = true
    · obtain ⟨t, q⟩ := q
      exact ⟨t, by rw [← h1 l ⟨t, q⟩]; exact a, q⟩
    · have := h2 l (by simpa using q)
      rw [this] at a; cases a
  have hf2 : ∀ l c t, f l = some c → s.ddirty l t = true → s.dd l c t := by
    intro l c t a b
    exact ⟨by rw [← h1 l ⟨t, b⟩]; exact a, b⟩
  have hf3 : ∀ l c t, s.dd l c t → f l = some c := by
    intro l c t a; rw [h1 l ⟨t, a.2⟩]; exact a.1
  refine ⟨⟨?_, ?_, ?_, ?_, ?_, ?_⟩, ?_, ?_, ?_, ?_, ?_⟩
  · intro l k c a b
    obtain ⟨t, x⟩ := hf l c a
    obtain ⟨u, y⟩ := hf k c b
    exact h.b3 l k c t u x y
  · intro l t a; exact a
  · intro l t a
    have := h.b0 l t a
    refine ⟨?_, this.2⟩
    show f l ≠ none
    rw [h1 l ⟨t, a⟩]; exact this.1
  · intro l c t a b; exact Or.inl (h.b4 l c t (hf2 l c t a b))
  · intro l c t a b; exact h.b4 l c t (hf2 l c t a b)
  · intro c t a
    refine h.b5 c t fun l z => ?_
    have := a l (hf3 l c t z)
    simp only [env] at this
    rw [z.2] at this; cases this
  · intro i
    simp only [Req.done, Req.fresh]
    generalize s.req i = r
    constructor
    case wf => constructor <;> (simp only [wiLike] at *; grind)
    all_goals (simp only [W, fb, coreDone, settled, wiLike] at *; grind)
  · intro i j c d l _ a
    simp [St.holds, Req.done, Req.fresh] at a
  · intro i j c t l v a
    simp [W, Req.done, Req.fresh] at a
  · intro i c t
    constructor
    · intro a; cases a
    · intro a; simp [W, Req.done, Req.fresh] at a
  · intro i c t
    constructor
    · intro a; cases a
    · intro a; simp [Req.done, Req.fresh] at a

theorem dsk_crash (h : Dsk S s m) {f : Nat → Option Nat}
    (h1 : ∀ l, (∃ t, s.ddirty l t = true) → f l = s.dmap l)
    (h2 : ∀ l, (∀ t, s.ddirty l t = false) → f l = none) (hm : m.Next .crash m') :
    Dsk S { s with map := f, valid := s.ddirty, dirty := s.ddirty
                   req := fun i => (s.req i).done } m' := by
  have hi := inv_crash h h1 h2 hm
  cases hm
  constructor
  · exact h.b0
  · intro l c t a b
    refine Or.inl ⟨?_, b⟩
    show s.dmap l = some c
    rw [← h1 l ⟨t, b⟩]; exact a
  · intro l c t a
    refine Or.inl ⟨?_, a.2⟩
    show f l = some c
    rw [h1 l ⟨t, a.2⟩]; exact a.1
  · exact h.b3
  · exact h.b4
  · exact h.b5
  · intro l c t a
    refine Or.inl ?_
    show f l = some c
    rw [h1 l ⟨t, a.2⟩]; exact a.1
  · intro i l c t a
    have := a.1.2.1
    simp [Req.done, Req.fresh] at this

end Verif.Engine
