import Verif.Lemma.EngineLocal

namespace Verif.Engine
open Verif.EngineSpec
variable {D : Type} {S : Nat} {s : St D} {m : Mon D}

/-- Assembling the invariant after a step that replaces request `i`. -/
theorem Inv.mk_step (h : Inv S s m) (i : Nat) (r : Req D) (s' : St D) (m' : Mon D)
    (hreq : s'.req = upd s.req i r)
    (hglo : Glo S (env s' m'))
    (hli : Loc S (env s' m') (m'.exp i) r)
    (hlj : ∀ j, j ≠ i → Loc S (env s' m') (m'.exp j) (s.req j))
    (hk : ∀ c l, r.ent c = .line l → r.held c = true →
      (r.excl = (s.req i).excl ∧ s.holds i c l) ∨
      ∀ j d, j ≠ i → s.holds j d l → r.excl = false ∧ (s.req j).excl = false)
    (hsj : ∀ j c t, j ≠ i → W r c t → settled r c → ∀ l v, fb (s.req j) l c t v → m'.fresh c t v)
    (hsi : ∀ l c t v, fb r l c t v → ∀ j, j ≠ i → W (s.req j) c t → settled (s.req j) c →
      m'.fresh c t v)
    (hs3 : ∀ l c t v, fb r l c t v → ¬ r.eng.isWr = true)
    (hs4 : ∀ j k c t l v, j ≠ i → k ≠ i → W (s.req j) c t → settled (s.req j) c →
      fb (s.req k) l c t v → m'.fresh c t v)
    (hmw : ∀ j c t, m'.wr j c t = true ↔ W (upd s.req i r j) c t)
    (hmr : ∀ j c t, m'.rd j c t = true ↔ (upd s.req i r j).eng.isRd = true ∧
      (upd s.req i r j).pc ≠ .free ∧ (upd s.req i r j).pc ≠ .fill ∧
      (upd s.req i r j).has c t = true) :
    Inv S s' m' := by
  have hr : ∀ j, s'.req j = if j = i then r else s.req j := by
    intro j; rw [hreq]; rfl
  refine ⟨hglo, ?_, ?_, ?_, ?_, ?_⟩
  · intro j
    rw [hr]
    split
    · next e => subst e; exact hli
    · next e => exact hlj j e
  · intro a b c d l hab ha hb
    simp only [St.holds, hr] at ha hb ⊢
    by_cases e1 : a = i
    · subst e1
      simp only [if_pos, if_neg (Ne.symm hab)] at ha hb ⊢
      rcases hk c l ha.1 ha.2 with ⟨q1, q2⟩ | q
      · rw [q1]; exact h.lock a b c d l hab q2 hb
      · exact q b d (Ne.symm hab) hb
    · simp only [if_neg e1] at ha ⊢
      by_cases e2 : b = i
      · subst e2
        simp only [if_pos] at hb ⊢
        rcases hk d l hb.1 hb.2 with ⟨q1, q2⟩ | q
        · rw [q1]; exact h.lock a b c d l hab ha q2
        · exact (q a c hab ha).symm
      · simp only [if_neg e2] at hb ⊢
        exact h.lock a b c d l hab ha hb
  · intro a b c t l v h1 h2 h3
    simp only [hr] at h1 h2 h3
    by_cases e1 : a = i
    · rw [if_pos e1] at h1 h2
      by_cases e2 : b = i
      · rw [if_pos e2] at h3
        exact absurd h1.1 (hs3 l c t v h3)
      · rw [if_neg e2] at h3
        exact hsj b c t e2 h1 h2 l v h3
    · rw [if_neg e1] at h1 h2
      by_cases e2 : b = i
      · rw [if_pos e2] at h3
        exact hsi l c t v h3 a e1 h1 h2
      · rw [if_neg e2] at h3
        exact hs4 a b c t l v e1 e2 h1 h2 h3
  · rw [hreq]; exact hmw
  · rw [hreq]; exact hmr

theorem Inv.mw_upd (h : Inv S s m) (i : Nat) (r : Req D)
    (hw : ∀ c t, (W r c t ↔ W (s.req i) c t) ∧ (W r c t → r.data c t = (s.req i).data c t))
    (j c t : Nat) : m.wr j c t = true ↔ W (upd s.req i r j) c t := by
  rw [h.mw, upd_apply]
  split
  · next e => subst e; exact (hw c t).1.symm
  · rfl

theorem Inv.mr_upd (h : Inv S s m) (i : Nat) (r : Req D)
    (hr : ∀ c t, (r.eng.isRd = true ∧ r.pc ≠ .free ∧ r.pc ≠ .fill ∧ r.has c t = true) ↔
      ((s.req i).eng.isRd = true ∧ (s.req i).pc ≠ .free ∧ (s.req i).pc ≠ .fill ∧
        (s.req i).has c t = true))
    (j c t : Nat) : m.rd j c t = true ↔ (upd s.req i r j).eng.isRd = true ∧
      (upd s.req i r j).pc ≠ .free ∧ (upd s.req i r j).pc ≠ .fill ∧
      (upd s.req i r j).has c t = true := by
  rw [h.mr, upd_apply]
  split
  · next e => subst e; exact (hr c t).symm
  · rfl

theorem pend_upd {s' : St D} {i : Nat} {r : Req D} (hreq : s'.req = upd s.req i r) {c t : Nat}
    (hpd : pd (s.req i) c t → pd r c t) : pend s c t → pend s' c t := by
  intro hp
  have := ex_upd (Q := fun r => pd r c t) hpd hp
  simpa [pend, hreq] using this

theorem tcov_upd {s' : St D} {i : Nat} {r : Req D} (hreq : s'.req = upd s.req i r) {l c t : Nat}
    (hpd : tc (s.req i) l c t → tc r l c t) : tcov s l c t → tcov s' l c t := by
  intro hp
  have := ex_upd (Q := fun r => tc r l c t) hpd hp
  simpa [tcov, hreq] using this

/-! ### What one request keeps when the rest changes -/

theorem fb_holds {e : Env D} {x} {r : Req D} (h : Loc S e x r) {l c t v} (a : fb r l c t v) :
    r.ent c = .line l ∧ r.held c = true ∧ e.map l = some c := by
  have h1 := a.2.2.2.1
  refine ⟨h1, (h.wf.rd ?_ c (h.wf.eo c (by simp [h1]))).2 l h1,
    h.mapped h1 (Or.inl (by simp [wiLike, a.1]))⟩
  rcases a.2.2.1 with q | q <;> simp [q]

theorem cl_holds {e : Env D} {x} {r : Req D} (h : Loc S e x r) {l c} (a : r.pc = .clean)
    (b : r.ent c = .line l) : r.held c = true ∧ e.map l = some c :=
  ⟨(h.wf.rd (by simp [a]) c (h.wf.eo c (by simp [b]))).2 l b, h.mapped b (Or.inr (by simp [a]))⟩

/-- One sector of the core changes. -/
theorem Loc.core_ch {e : Env D} {x} {r : Req D} (h : Loc S e x r) {c0 t0 : Nat} {v : D} {T}
    (hT : ∀ l c t, e.T l c t → T l c t)
    (hv : e.ok c0 t0 v)
    (hwcr : W r c0 t0 → coreDone r c0 t0 → e.fresh c0 t0 v)
    (hwt : W r c0 t0 → r.eng = .wt → r.pc = .xfer → r.toCore c0 t0 = false →
      e.fresh c0 t0 v) :
    Loc S { e with core := upd2 e.core c0 t0 v, T := T } x r :=
  { h with
    ar := by have := h.ar; grind
    pc0 := by
      intro c t a b
      have h1 := h.pc0 c t a b
      have h2 := h.ex c0 t0 v a (fun z => by have := (h.wf.fr z c).1; rw [b] at this; cases this)
        (fun z => h.wf.mp (Or.inl (h.wf.p4 z).1) c b) hv
      grind
    c2 := by have := h.c2; grind
    wcr := by have := h.wcr; grind
    wt := by have := h.wt; grind
    se := by have := h.se; grind }

/-- One sector of the cache changes, on a line the request does not hold. -/
theorem Loc.cache_ch {e : Env D} {x} {r : Req D} (h : Loc S e x r) {l0 t0 : Nat} {v : D} {T}
    (hT : ∀ l c t, e.T l c t → T l c t ∨ l = l0 ∧ t = t0)
    (hno : ∀ c, r.ent c = .line l0 → r.held c = true → False)
    (hse : ∀ c, e.map l0 = some c → W r c t0 → settled r c → e.valid l0 t0 = true →
      e.fresh c t0 v ∨ T l0 c t0)
    (hsd : ∀ c, e.map l0 = some c → W r c t0 → e.dirty l0 t0 = true → e.fresh c t0 v) :
    Loc S { e with cache := upd2 e.cache l0 t0 v, T := T } x r := by
  have hrd := h.wf.rd
  have heo := h.wf.eo
  have hwk := h.wf.wk
  exact
  { h with
    ar := by have := h.ar; grind
    fl := by have := h.fl; simp only [fb] at *; grind
    c1 := by have := h.c1; grind
    c2 := by have := h.c2; grind
    wt := by have := h.wt; grind
    wca := by have := h.wca; grind
    se := by have := h.se; grind
    sd := by have := h.sd; grind }

/-- Status bits change. -/
theorem Loc.bits_ch {e : Env D} {x} {r : Req D} (h : Loc S e x r) {w d : Nat → Nat → Bool} {T}
    (hT : ∀ l c t, w l t = true → e.T l c t → T l c t)
    (hv : ∀ c l t, r.ent c = .line l → r.held c = true → e.valid l t = true → w l t = true)
    (hd : ∀ c l t, r.ent c = .line l → r.held c = true → d l t = true → e.dirty l t = true)
    (hd2 : ∀ c l t, r.ent c = .line l → r.held c = true → r.excl = true → e.dirty l t = true →
      d l t = true)
    (hse : ∀ c t l, W r c t → settled r c → e.map l = some c → w l t = true →
      e.valid l t = true ∨ e.fresh c t (e.cache l t) ∨ T l c t)
    (hsd : ∀ c t l, W r c t → e.map l = some c → d l t = true →
      e.dirty l t = true ∨ e.fresh c t (e.cache l t)) :
    Loc S { e with valid := w, dirty := d, T := T } x r := by
  have hrd := h.wf.rd
  have heo := h.wf.eo
  have hwk := h.wf.wk
  have hho := h.wf.ho
  have hmp := h.wf.mp
  exact
  { h with
    hit := by have := h.hit; grind
    r2 := by
      intro c t v a b
      rcases h.r2 c t v a b with q | ⟨q1, q2, q3, l, q4, q5⟩
      · exact Or.inl q
      · exact Or.inr ⟨q1, q2, q3, l, q4, hv c l t q4
          ((hrd (by simp [a]) c (heo c (by simp [q4]))).2 l q4) q5⟩
    r5 := by have := h.r5; grind
    nd := by have := h.nd; grind
    c1 := by have := h.c1; grind
    c2 := by
      intro c l t a b f g k
      exact h.c2 c l t a b f (hd c l t b (cl_holds h a b).1 g) k
    wud := by
      intro c l t a b f
      have h1 := h.wud c l t a b f
      have h2 := (h.wf.lk a.2.1).1 a.1
      have h3 := (hrd (by simp [(h.wf.ud c b).1]) c (hho c t a.2.2)).2 l f
      refine ⟨fun z => hd2 c l t f h3 h2 (h1.1 z), fun z => ⟨?_, hv c l t f h3 (h1.2 z).2⟩⟩
      cases q : d l t with
      | false => exact q
      | true => have := hd c l t f h3 q; rw [(h1.2 z).1] at this; cases this
    se := by have := h.se; grind
    sd := by have := h.sd; grind }

/-- The mapping of a line changes which the request does not refer to. -/
theorem Loc.map_ch {e : Env D} {x} {r : Req D} (h : Loc S e x r) {l0 : Nat} {o : Option Nat}
    {w : Nat → Nat → Bool} {T}
    (hT : ∀ l c t, e.T l c t → T l c t)
    (hno : ∀ c, r.ent c ≠ .line l0)
    (hw : ∀ l t, w l t = if l = l0 then false else e.valid l t)
    (hd : ∀ t, e.dirty l0 t = false) :
    Loc S { e with map := upd e.map l0 o, valid := w, T := T } x r :=
  { h with
    link := by have := h.link; grind
    ar := by have := h.ar; grind
    hit := by have := h.hit; grind
    r2 := by have := h.r2; grind
    r5 := by have := h.r5; grind
    c1 := by have := h.c1; grind
    c2 := by have := h.c2; grind
    wt := by have := h.wt; grind
    wud := by have := h.wud; grind
    se := by have := h.se; grind
    sd := by have := h.sd; grind }

/-- The exclusive holder of a line is its only holder. -/
theorem Inv.alone (h : Inv S s m) {i j c d l : Nat} (hij : j ≠ i) (a : s.holds i c l)
    (b : (s.req i).excl = true) (e : s.holds j d l) : False := by
  have := (h.lock i j c d l (Ne.symm hij) a e).1
  simp [b] at this

/-- A write in its transfer phase, seen from its sector. -/
theorem Inv.xferLine (h : Inv S s m) {i c t : Nat} (a : W (s.req i) c t)
    (b : (s.req i).eng = .wt ∨ (s.req i).eng = .wb) (p : (s.req i).pc = .xfer) :
    ∃ l, s.holds i c l ∧ s.map l = some c ∧ (s.req i).excl = true := by
  have hl := h.loc i
  have h1 := hl.wf.rd (by simp [p]) c (hl.wf.ho c t a.2.2)
  have h2 := hl.wf.mp (by grind) c
  cases hq : (s.req i).ent c with
  | unseen => exact absurd hq h1.1
  | none => exact absurd hq h2
  | line l =>
    exact ⟨l, ⟨hq, h1.2 l hq⟩, hl.mapped hq (Or.inl (by simp only [wiLike]; grind)),
      h.wrExcl a.1 a.2.1⟩

theorem inv_wCore (h : Inv S s m) (i c t : Nat) (h1 : (s.req i).pc = .xfer)
    (h2 : (s.req i).toCore c t = true) :
    Inv S { s with
          core := upd2 s.core c t ((s.req i).data c t)
          req := upd s.req i
            { s.req i with toCore := upd2 (s.req i).toCore c t false } } m := by
  have hl := h.loc i
  have hw := hl.wf
  have hwr := hw.p5 h1
  have hW : W (s.req i) c t := ⟨hwr, by simp [h1], ((hw.tx h1 c t).2 h2)⟩
  have hok := hl.n2 c t _ hW (hl.n1 c t hW)
  have hnu : ∀ d, (s.req i).updd d = false := by
    intro d
    cases q : (s.req i).updd d with
    | false => rfl
    | true => have := (hl.wux d q c t).2; rw [h2] at this; cases this
  have heng : (s.req i).eng = .wt ∨ (s.req i).eng = .wb ∨ (s.req i).eng = .wi := by
    have := hw.w2 h1
    cases q : (s.req i).eng <;> simp_all [Eng.isWr]
  generalize hs' : ({ s with
          core := upd2 s.core c t ((s.req i).data c t)
          req := upd s.req i
            { s.req i with toCore := upd2 (s.req i).toCore c t false } } : St D) = s'
  have hreq : s'.req = upd s.req i { s.req i with toCore := upd2 (s.req i).toCore c t false } := by
    rw [← hs']
  have hT : ∀ l c t, tcov s l c t → tcov s' l c t := fun l c t => tcov_upd hreq id
  have henv : env s' m = { env s m with
      core := upd2 (env s m).core c t ((s.req i).data c t)
      T := tcov s' } := by rw [← hs']; rfl
  apply h.mk_step i _ s' m hreq
  case hglo =>
    rw [henv]
    have hg := h.glo
    refine { hg with a1 := ?_, a2 := ?_ }
    · exact fun l c t a b => (hg.a1 l c t a b).imp id (hT l c t)
    · have := hg.a2; simp only [env] at *; grind
  case hlj =>
    intro j hj
    rw [henv]
    have hlj := h.loc j
    apply hlj.core_ch hT hok
    · intro _ _; exact hl.n1 c t hW
    · intro _ _ _ _; exact hl.n1 c t hW
  case hli =>
    rw [henv]
    have hn := hl.n1 c t hW
    have hci := hl.core_ch (c0 := c) (t0 := t) (v := (s.req i).data c t) hT hok
      (fun _ _ => hn) (fun _ _ _ _ => hn)
    generalize s.req i = r at *
    clear h henv hT hl
    loc_auto hci
    case wf => wf_auto hw
  case hmw => exact h.mw_upd i _ fun c t => ⟨Iff.rfl, fun _ => rfl⟩
  case hmr => exact h.mr_upd i _ fun c t => Iff.rfl
  case hk => intro c' l a b; exact Or.inl ⟨rfl, a, b⟩
  case hsj => intro j c' t' _ a b l v d; exact h.sr i j c' t' l v a b d
  case hsi => intro l c' t' v a j _ b d; exact h.sr j i c' t' l v b d a
  case hs3 => intro l c' t' v a; have := a.1; simp only at this; simp [this, Eng.isWr]
  case hs4 => intro j k c' t' l v _ _ a b d; exact h.sr j k c' t' l v a b d

theorem inv_cwrite (h : Inv S s m) (i c t : Nat) (h1 : (s.req i).pc = .clean)
    (h2 : (s.req i).wback c t = true)
    (h3 : ∀ l, (s.req i).ent c = .line l → s.dirty l t = true ∨ ¬ pend s c t ∨
      ∀ v, m.fresh c t v) :
    Inv S { s with
          core := upd2 s.core c t ((s.req i).buf c t)
          req := upd s.req i
            { s.req i with wback := upd2 (s.req i).wback c t false } } m := by
  have hl := h.loc i
  have hw := hl.wf
  obtain ⟨l, hent⟩ := hw.fi c (hw.wk c t h2).2
  obtain ⟨hheld, hmap⟩ := cl_holds hl h1 hent
  have hholds : s.holds i c l := ⟨hent, hheld⟩
  obtain ⟨hbuf, hval⟩ := hl.c1 c l t hent h2
  simp only [env] at hbuf hval hmap
  have hok : m.ok c t ((s.req i).buf c t) := by
    rw [hbuf]; exact h.okCache hholds (Or.inr (by simp [h1])) hmap hval
  generalize hs' : ({ s with
          core := upd2 s.core c t ((s.req i).buf c t)
          req := upd s.req i
            { s.req i with wback := upd2 (s.req i).wback c t false } } : St D) = s'
  have hreq : s'.req = upd s.req i { s.req i with wback := upd2 (s.req i).wback c t false } := by
    rw [← hs']
  have hT : ∀ l c t, tcov s l c t → tcov s' l c t := fun l c t => tcov_upd hreq id
  have henv : env s' m = { env s m with
      core := upd2 (env s m).core c t ((s.req i).buf c t)
      T := tcov s' } := by rw [← hs']; rfl
  have hinj := h.glo.inj
  have alone : ∀ j k, j ≠ i → (s.req j).ent c = .line k → (s.req j).held c = true →
      s.map k = some c → (s.req j).excl = true → False := by
    intro j k hj a b d e
    have : k = l := hinj k l c d hmap
    subst this
    exact h.alone (Ne.symm hj) ⟨a, b⟩ e hholds
  apply h.mk_step i _ s' m hreq
  case hglo =>
    rw [henv]
    have hg := h.glo
    refine { hg with a1 := ?_, a2 := ?_ }
    · exact fun l c t a b => (hg.a1 l c t a b).imp id (hT l c t)
    · have := hg.a2; simp only [env] at *; grind
  case hlj =>
    intro j hj
    rw [henv]
    have hlj := h.loc j
    apply hlj.core_ch hT hok
    · intro a b
      rcases h3 l hent with hd | hd | hd
      · have hsd := hlj.sd c t l a (by
          rcases b with b | b
          · exact Or.inr b
          · exact Or.inl b.1) (by
          rcases b with b | b
          · exact Or.inl b
          · exact Or.inr (hlj.wf.rd (by simp [b.2.1]) c (hlj.wf.ho c t a.2.2)).1) hmap hd
        rcases hsd with q | ⟨q1, q2, q3⟩
        · rw [hbuf]; exact q
        · rcases b with b | b
          · rw [b] at q1; cases q1
          · exact absurd (alone j l hj q2 ((hlj.wf.rd (by simp [b.2.1]) c
              (hlj.wf.ho c t a.2.2)).2 l q2) hmap (h.wrExcl a.1 a.2.1)) id
      · by_cases hq : settled (s.req j) c
        · rw [hbuf]
          exact (hlj.se c t l a hq hmap hval).resolve_right
            (h.noT hholds (Or.inr (by simp [h1])) c t)
        · exact absurd ⟨j, a, b, hq⟩ hd
      · exact hd _
    · intro a b d _
      obtain ⟨k, q1, q2, q3⟩ := h.xferLine a (Or.inl b) d
      exact absurd (alone j k hj q1.1 q1.2 q2 q3) id
  case hli =>
    rw [henv]
    have hci := hl.core_ch (c0 := c) (t0 := t) (v := (s.req i).buf c t) hT hok
      (fun a b => by
        have := hw.p6 h1
        simp only [coreDone] at b; grind)
      (fun _ _ a => by simp [h1] at a)
    have hbuf' : (s.req i).buf c t = (env s m).cache l t := hbuf
    generalize s.req i = r at *
    clear h henv hT alone hl
    loc_auto hci
    case wf => wf_auto hw
  case hmw => exact h.mw_upd i _ fun c t => ⟨Iff.rfl, fun _ => rfl⟩
  case hmr => exact h.mr_upd i _ fun c t => Iff.rfl
  case hk => intro c' l a b; exact Or.inl ⟨rfl, a, b⟩
  case hsj => intro j c' t' _ a b l v d; exact h.sr i j c' t' l v a b d
  case hsi => intro l c' t' v a j _ b d; exact h.sr j i c' t' l v b d a
  case hs3 => intro l c' t' v a; have := a.1; simp only at this; simp [this, Eng.isWr]
  case hs4 => intro j k c' t' l v _ _ a b d; exact h.sr j k c' t' l v a b d

theorem inv_wCache (h : Inv S s m) (i c t l : Nat) (h1 : (s.req i).pc = .xfer)
    (h2 : (s.req i).toCache c t = true) (h3 : (s.req i).ent c = .line l) :
    Inv S { s with
          cache := upd2 s.cache l t ((s.req i).data c t)
          req := upd s.req i
            { s.req i with toCache := upd2 (s.req i).toCache c t false } } m := by
  have hl := h.loc i
  have hw := hl.wf
  have hwr := hw.p5 h1
  obtain ⟨hhas, heng⟩ := (hw.tx h1 c t).1 h2
  have hW : W (s.req i) c t := ⟨hwr, by simp [h1], hhas⟩
  have hn := hl.n1 c t hW
  have hok := hl.n2 c t _ hW hn
  have hnu : ∀ d, (s.req i).updd d = false := by
    intro d
    cases q : (s.req i).updd d with
    | false => rfl
    | true => have := (hl.wux d q c t).1; rw [h2] at this; cases this
  have hheld := (hw.rd (by simp [h1]) c (hw.ho c t hhas)).2 l h3
  have hmap : s.map l = some c := hl.mapped h3 (Or.inl (by simp only [wiLike]; grind))
  have hex := h.wrExcl hW.1 hW.2.1
  have hholds : s.holds i c l := ⟨h3, hheld⟩
  generalize hs' : ({ s with
          cache := upd2 s.cache l t ((s.req i).data c t)
          req := upd s.req i
            { s.req i with toCache := upd2 (s.req i).toCache c t false } } : St D) = s'
  have hreq : s'.req = upd s.req i { s.req i with toCache := upd2 (s.req i).toCache c t false } := by
    rw [← hs']
  have hT : ∀ k d u, tcov s k d u → tcov s' k d u ∨ k = l ∧ u = t := by
    intro k d u hk
    by_cases e : k = l ∧ u = t
    · exact Or.inr e
    · left
      refine tcov_upd hreq ?_ hk
      simp only [tc, W, upd2_apply]
      rintro ⟨a1, a2, a3, a4, a5, a6⟩
      refine ⟨a1, a2, a3, a4, a5, ?_⟩
      have : ¬ (d = c ∧ u = t) := by
        rintro ⟨rfl, rfl⟩
        rw [h3] at a2; cases a2; exact e ⟨rfl, rfl⟩
      simp [this, a6]
  have henv : env s' m = { env s m with
      cache := upd2 (env s m).cache l t ((s.req i).data c t)
      T := tcov s' } := by rw [← hs']; rfl
  apply h.mk_step i _ s' m hreq
  case hglo =>
    rw [henv]
    have hg := h.glo
    refine { hg with a1 := ?_, ad := ?_ }
    · have := hg.a1; simp only [env] at *; grind
    · have := hg.ad; simp only [env] at *; grind
  case hlj =>
    intro j hj
    rw [henv]
    have hlj := h.loc j
    apply hlj.cache_ch hT
    · intro d a b
      exact h.alone hj hholds hex ⟨a, b⟩
    · intro d a _ _ _
      have : d = c := by simp only [env] at a; rw [hmap] at a; cases a; rfl
      subst this
      exact Or.inl hn
    · intro d a _ _
      have : d = c := by simp only [env] at a; rw [hmap] at a; cases a; rfl
      subst this
      exact hn
  case hli =>
    rw [henv]
    have hun := hl.uniq
    have hwk := hw.wk
    generalize s.req i = r at *
    clear h henv hreq
    loc_auto hl
    case wf => wf_auto hw
  case hmw => exact h.mw_upd i _ fun c t => ⟨Iff.rfl, fun _ => rfl⟩
  case hmr => exact h.mr_upd i _ fun c t => Iff.rfl
  case hk => intro c' l a b; exact Or.inl ⟨rfl, a, b⟩
  case hsj => intro j c' t' _ a b l v d; exact h.sr i j c' t' l v a b d
  case hsi => intro l c' t' v a j _ b d; exact h.sr j i c' t' l v b d a
  case hs3 => intro l c' t' v a; have := a.1; simp only at this; simp [this, Eng.isWr]
  case hs4 => intro j k c' t' l v _ _ a b d; exact h.sr j k c' t' l v a b d

theorem inv_fill (h : Inv S s m) (i c t l : Nat) (v : D) (h1 : (s.req i).pc = .fill)
    (h2 : (s.req i).toCache c t = true) (h3 : (s.req i).ent c = .line l)
    (h4 : (s.req i).res c t = some v) :
    Inv S { s with
          cache := upd2 s.cache l t v
          req := upd s.req i
            { s.req i with toCache := upd2 (s.req i).toCache c t false } } m := by
  have hl := h.loc i
  have hw := hl.wf
  obtain ⟨heng, hex⟩ := hw.p4 h1
  have hhas := hw.tf h1 c t h2
  have hfb : fb (s.req i) l c t v := ⟨heng, hex, Or.inr h1, h3, hhas, h4⟩
  obtain ⟨_, hheld, hmap⟩ := fb_holds hl hfb
  simp only [env] at hmap
  have hok := hl.ar l c t v hfb
  simp only [env] at hok
  have hnd : s.dirty l t = false := hl.nd c l t h3 (Or.inr (Or.inl h1))
  have hholds : s.holds i c l := ⟨h3, hheld⟩
  generalize hs' : ({ s with
          cache := upd2 s.cache l t v
          req := upd s.req i
            { s.req i with toCache := upd2 (s.req i).toCache c t false } } : St D) = s'
  have hreq : s'.req = upd s.req i { s.req i with toCache := upd2 (s.req i).toCache c t false } := by
    rw [← hs']
  have hT : ∀ k d u, tcov s k d u → tcov s' k d u :=
    fun k d u => tcov_upd hreq (by simp only [tc, W]; grind)
  have henv : env s' m = { env s m with
      cache := upd2 (env s m).cache l t v
      T := tcov s' } := by rw [← hs']; rfl
  apply h.mk_step i _ s' m hreq
  case hglo =>
    rw [henv]
    have hg := h.glo
    refine { hg with a1 := ?_, ad := ?_ }
    · have := hg.a1; simp only [env] at *; grind
    · have := hg.ad; simp only [env] at *; grind
  case hlj =>
    intro j hj
    rw [henv]
    have hlj := h.loc j
    apply hlj.cache_ch (fun l c t a => Or.inl (hT l c t a))
    · intro d a b
      exact h.alone hj hholds hex ⟨a, b⟩
    · intro d a b e _
      have : d = c := by simp only [env] at a; rw [hmap] at a; cases a; rfl
      subst this
      exact Or.inl (h.sr j i d t l v b e hfb)
    · intro d a _ b
      simp only [env] at b
      rw [hnd] at b; cases b
  case hli =>
    rw [henv]
    have hun := hl.uniq
    have hwk := hw.wk
    generalize s.req i = r at *
    clear h henv hreq
    loc_auto hl
    case wf => wf_auto hw
  case hmw => exact h.mw_upd i _ fun c t => ⟨Iff.rfl, fun _ => rfl⟩
  case hmr => exact h.mr_upd i _ fun c t => Iff.rfl
  case hk => intro c' l a b; exact Or.inl ⟨rfl, a, b⟩
  case hsj => intro j c' t' _ a b l v d; exact h.sr i j c' t' l v a b d
  case hsi => intro l c' t' v a j _ b d; exact h.sr j i c' t' l v b d a
  case hs3 => intro l c' t' v a; have := a.1; simp only at this; simp [this, Eng.isWr]
  case hs4 => intro j k c' t' l v _ _ a b d; exact h.sr j k c' t' l v a b d

theorem inv_cmark (h : Inv S s m) (i c l : Nat) (n : Bool) (h1 : (s.req i).pc = .clean)
    (h2 : (s.req i).ent c = .line l) (h3 : (s.req i).fired c = true)
    (h4 : (s.req i).marked c = false) (h5 : ∀ t, (s.req i).wback c t = false) :
    Inv S { s with
          dirty := fun k t => if k = l then false else s.dirty k t
          req := upd s.req i
            { s.req i with
              marked := upd (s.req i).marked c true
              need := upd (s.req i).need c n } } m := by
  have hl := h.loc i
  have hw := hl.wf
  obtain ⟨hheld, hmap⟩ := cl_holds hl h1 h2
  simp only [env] at hmap
  have hholds : s.holds i c l := ⟨h2, hheld⟩
  have hcp : ∀ t, s.dirty l t = true → m.ok c t (s.core c t) :=
    fun t a => hl.c2 c l t h1 h2 h3 a (h5 t)
  generalize hs' : ({ s with
          dirty := fun k t => if k = l then false else s.dirty k t
          req := upd s.req i
            { s.req i with
              marked := upd (s.req i).marked c true
              need := upd (s.req i).need c n } } : St D) = s'
  have hreq : s'.req = upd s.req i
            { s.req i with
              marked := upd (s.req i).marked c true
              need := upd (s.req i).need c n } := by
    rw [← hs']
  have hT : ∀ k d u, tcov s k d u → tcov s' k d u := fun k d u => tcov_upd hreq id
  have henv : env s' m = { env s m with
      valid := (env s m).valid
      dirty := fun k t => if k = l then false else s.dirty k t
      T := tcov s' } := by rw [← hs']; rfl
  have hinj := h.glo.inj
  apply h.mk_step i _ s' m hreq
  case hglo =>
    rw [henv]
    have hg := h.glo
    refine { hg with dv := ?_, a1 := ?_, ad := ?_, a2 := ?_ }
    · have := hg.dv; simp only [env] at *; grind
    · have := hg.a1; simp only [env] at *; grind
    · have := hg.ad; simp only [env] at *; grind
    · intro d t a
      by_cases e : d = c
      · subst e
        by_cases hd : s.dirty l t = true
        · exact hcp t hd
        · exact h.okCore hmap (by simpa using hd)
      · apply hg.a2
        intro k hk
        have := a k hk
        have hkl : k ≠ l := by
          rintro rfl
          simp only [env] at hk
          rw [hmap] at hk; cases hk; exact e rfl
        simp only [hkl, if_false] at this; exact this
  case hlj =>
    intro j hj
    rw [henv]
    have hlj := h.loc j
    apply hlj.bits_ch (fun l c t _ => hT l c t)
    · exact fun _ _ _ _ _ a => a
    · intro d k t a b e
      by_cases hkl : k = l
      · simp [hkl] at e
      · simp only [hkl, if_false] at e; exact e
    · intro d k t a b e f
      by_cases hkl : k = l
      · subst hkl
        exact absurd (h.alone (Ne.symm hj) ⟨a, b⟩ e hholds) id
      · simp only [hkl, if_false]; exact f
    · exact fun _ _ _ _ _ _ a => Or.inl a
    · intro d t k _ _ a
      by_cases hkl : k = l
      · simp [hkl] at a
      · left; simp only [hkl, if_false] at a; exact a
  case hli =>
    rw [henv]
    have hun := hl.uniq
    have hwk := hw.wk
    have hwud := hw.ud
    have hp6 := hw.p6 h1
    generalize s.req i = r at *
    clear h henv hreq hcp
    loc_auto hl
    case wf => wf_auto hw
  case hmw => exact h.mw_upd i _ fun c t => ⟨Iff.rfl, fun _ => rfl⟩
  case hmr => exact h.mr_upd i _ fun c t => Iff.rfl
  case hk => intro c' l a b; exact Or.inl ⟨rfl, a, b⟩
  case hsj => intro j c' t' _ a b l v d; exact h.sr i j c' t' l v a b d
  case hsi => intro l c' t' v a j _ b d; exact h.sr j i c' t' l v b d a
  case hs3 => intro l c' t' v a; have := a.1; simp only at this; simp [this, Eng.isWr]
  case hs4 => intro j k c' t' l v _ _ a b d; exact h.sr j k c' t' l v a b d

theorem inv_fillEnd (h : Inv S s m) (i : Nat) (w : Nat → Nat → Bool) (h1 : (s.req i).pc = .fill)
    (h2 : ∀ c t, (s.req i).toCache c t = false)
    (h3 : ∀ l t, w l t = true ↔ s.valid l t = true ∨
        ∃ c, (s.req i).has c t = true ∧ (s.req i).ent c = .line l) :
    Inv S { s with valid := w, req := upd s.req i (s.req i).done } m := by
  have hl := h.loc i
  have hw := hl.wf
  obtain ⟨heng, hex⟩ := hw.p4 h1
  have hnew : ∀ c l t, (s.req i).has c t = true → (s.req i).ent c = .line l →
      ∃ v, fb (s.req i) l c t v ∧ s.cache l t = v ∧ m.ok c t v ∧
        s.map l = some c ∧ t < S ∧ s.holds i c l := by
    intro c l t a b
    have := hl.fn c t h1 a
    cases q : (s.req i).res c t with
    | none => exact absurd q this
    | some v =>
      have hfb : fb (s.req i) l c t v := ⟨heng, hex, Or.inr h1, b, a, q⟩
      have h4 := fb_holds hl hfb
      have h5 := hl.ar l c t v hfb
      exact ⟨v, hfb, hl.fl l c t v hfb h1 (h2 c t), h5, h4.2.2, hl.hs c t a, h4.1, h4.2.1⟩
  generalize hs' : ({ s with valid := w, req := upd s.req i (s.req i).done } : St D) = s'
  have hreq : s'.req = upd s.req i (s.req i).done := by rw [← hs']
  have hT : ∀ k d u, tcov s k d u → tcov s' k d u := fun k d u => tcov_upd hreq (by
    rintro ⟨a, _⟩; have := a.1; simp [heng, Eng.isWr] at this)
  have henv : env s' m = { env s m with
      valid := w
      dirty := (env s m).dirty
      T := tcov s' } := by rw [← hs']; rfl
  have hinj := h.glo.inj
  apply h.mk_step i _ s' m hreq
  case hglo =>
    rw [henv]
    have hg := h.glo
    refine { hg with dv := ?_, vm := ?_, a1 := ?_ }
    · intro l t a; exact (h3 l t).2 (Or.inl (hg.dv l t a))
    · intro l t a
      rcases (h3 l t).1 a with q | ⟨c, q1, q2⟩
      · exact hg.vm l t q
      · obtain ⟨v, _, _, _, k1, k2, _⟩ := hnew c l t q1 q2
        exact ⟨by simp [env, k1], k2⟩
    · intro l c t a b
      rcases (h3 l t).1 b with q | ⟨d, q1, q2⟩
      · exact (hg.a1 l c t a q).imp id (hT l c t)
      · obtain ⟨v, _, k0, k3, k1, k2, _⟩ := hnew d l t q1 q2
        have : c = d := by simp only [env] at a; rw [k1] at a; cases a; rfl
        subst this
        left; simp only [env]; rw [k0]; exact k3
  case hlj =>
    intro j hj
    rw [henv]
    have hlj := h.loc j
    apply hlj.bits_ch (fun l c t _ => hT l c t)
    · exact fun _ l t _ _ a => (h3 l t).2 (Or.inl a)
    · exact fun _ _ _ _ _ a => a
    · exact fun _ _ _ _ _ _ a => a
    · intro c t l a b e f
      rcases (h3 l t).1 f with q | ⟨d, q1, q2⟩
      · exact Or.inl q
      · obtain ⟨v, kf, k0, k3, k1, k2, _⟩ := hnew d l t q1 q2
        have : c = d := by simp only [env] at e; rw [k1] at e; cases e; rfl
        subst this
        right; left; simp only [env]; rw [k0]; exact h.sr j i c t l v a b kf
    · exact fun _ _ _ _ _ a => Or.inl a
  case hli =>
    rw [henv]
    simp only [Req.done, Req.fresh]
    generalize s.req i = r at *
    clear h henv hreq hnew
    loc_auto hl
    case wf => wf_auto hw
  case hmw =>
    refine h.mw_upd i _ fun c t => ?_
    constructor
    · simp [W, Req.done, Req.fresh, heng, Eng.isWr]
    · intro a; simp [W, Req.done, Req.fresh] at a
  case hmr => exact h.mr_upd i _ fun c t => by simp [Req.done, Req.fresh, h1]
  case hk => intro c' l a b; simp [Req.done, Req.fresh] at b
  case hsj => intro j c' t' _ a; simp [W, Req.done, Req.fresh] at a
  case hsi => intro l c' t' v a; simp [fb, Req.done, Req.fresh] at a
  case hs3 => intro l c' t' v a; simp [fb, Req.done, Req.fresh] at a
  case hs4 => intro j k c' t' l v _ _ a b d; exact h.sr j k c' t' l v a b d

end Verif.Engine
