import Verif.Lemma.EngineMap

namespace Verif.Engine
open Verif.EngineSpec
variable {D : Type} {S : Nat} {s : St D} {m : Mon D}

/-- The monitor moves on. -/
theorem Loc.mon_ch {e : Env D} {x y : Nat → Nat → D → Prop} {r : Req D} (h : Loc S e x r)
    {T} {ok fresh : Nat → Nat → D → Prop}
    (hT : ∀ l c t, e.T l c t → T l c t)
    (hf : ∀ c t v, W r c t → e.fresh c t v → fresh c t v)
    (hn2 : ∀ c t v, W r c t → fresh c t v → ok c t v)
    (har : ∀ l c t v, fb r l c t v → ok c t v)
    (hc2 : ∀ c l t, r.pc = .clean → r.ent c = .line l → r.fired c = true →
      e.dirty l t = true → r.wback c t = false → e.ok c t (e.core c t) → ok c t (e.core c t))
    (hex : ∀ c t v, r.eng.isRd = true → r.pc ≠ .free → r.pc ≠ .fill → ok c t v → y c t v)
    (he : ∀ c t v, x c t v → y c t v) :
    Loc S { e with ok := ok, fresh := fresh, T := T } y r :=
  { h with
    n1 := fun c t a => hf c t _ a (h.n1 c t a)
    n2 := hn2
    ar := har
    ex := hex
    pc0 := fun c t a b => he _ _ _ (h.pc0 c t a b)
    r1 := fun c t v a b => he _ _ _ (h.r1 c t v a b)
    r2 := fun c t v a b => (h.r2 c t v a b).imp (he _ _ _) id
    r3 := fun c t v a b d => he _ _ _ (h.r3 c t v a b d)
    c2 := fun c l t a b d f g => hc2 c l t a b d f g (h.c2 c l t a b d f g)
    wcr := fun c t a b => hf _ _ _ a (h.wcr c t a b)
    wt := fun c t a b d f => hf _ _ _ a (h.wt c t a b d f)
    se := fun c t l a b d f => (h.se c t l a b d f).imp (hf _ _ _ a) (hT l c t)
    sd := fun c t l a b d f g => (h.sd c t l a b d f g).imp (hf _ _ _ a) id }

/-- The copy of the metadata on the cache device is not part of the invariant. -/
theorem Inv.disk (h : Inv S s m) (a : Nat → Option Nat) (b : Nat → Nat → Bool) :
    Inv S { s with dmap := a, ddirty := b } m :=
  ⟨h.glo, h.loc, h.lock, h.sr, h.mw, h.mr⟩

theorem inv_flush (h : Inv S s m) (i c l : Nat) (a : Nat → Option Nat) (b : Nat → Nat → Bool)
    (h1 : (s.req i).ent c = .line l) (h2 : (s.req i).need c = true) :
    Inv S { s with
          dmap := a
          ddirty := b
          req := upd s.req i { s.req i with need := upd (s.req i).need c false } } m := by
  refine Inv.disk (s := s.setReq i { s.req i with need := upd (s.req i).need c false }) ?_ a b
  have hl := h.loc i
  obtain ⟨r, h0⟩ : ∃ r, s.req i = r := ⟨_, rfl⟩
  rw [h0] at hl h1 h2 ⊢
  have hw := hl.wf
  apply h.loc_step i h0
  case hl =>
    clear h h0
    loc_auto hl
    case wf => wf_auto hw
  case hk => intro c' l' a b; exact Or.inl ⟨rfl, by simpa [St.holds, h0] using ⟨a, b⟩⟩
  case htc => exact fun _ _ _ z => z
  case hs1 => exact fun _ _ a b => Or.inl ⟨a, b⟩
  case hs2 => exact fun _ _ _ _ a => Or.inl a
  case hs3 => intro l c' t' v a; have := a.1; simp only at this; simp [this, Eng.isWr]
  case hw => exact fun _ _ => ⟨Iff.rfl, fun _ => rfl⟩
  case hr => exact fun _ _ => Iff.rfl

theorem inv_invR (h : Inv S s m) {m' : Mon D} (i : Nat) (r : Req D) (e : Eng) (x : Bool)
    (h1 : (s.req i).pc = .free) (h2 : Eng.isRd e = true) (h3 : e.lockOk x)
    (h4 : ∀ c t, r.has c t = true → r.on c = true) (h5 : ∀ c t, r.has c t = true → t < S)
    (hm : m.Next (.callR i r.has) m') :
    Inv S (s.setReq i (Req.fresh r e .look x)) m' := by
  cases hm
  have hl := h.loc i
  have hnw : e.isWr = false := by cases e <;> simp_all [Eng.isWr, Eng.isRd]
  have hreq : (s.setReq i (Req.fresh r e .look x)).req = upd s.req i (Req.fresh r e .look x) := rfl
  have hT : ∀ l c t, tcov s l c t → tcov (s.setReq i (Req.fresh r e .look x)) l c t :=
    fun l c t => tcov_upd hreq (by rintro ⟨a, _⟩; exact absurd h1 a.2.1)
  apply h.mk_step i _ _ _ hreq
  case hglo =>
    exact h.glo.mono hT
  case hlj =>
    intro j hj
    simp only [hj, if_false]
    exact (h.loc j).mono hT
  case hli =>
    simp only [if_true, env, Req.fresh]
    clear h hT hl hreq
    constructor
    case wf => constructor <;> (simp only [wiLike] at *; grind)
    all_goals (simp only [W, fb, coreDone, settled, wiLike] at *; grind)
  case hmw =>
    refine h.mw_upd i _ fun c t => ?_
    simp [W, Req.fresh, hnw, h1]
  case hmr =>
    intro j c t
    by_cases hj : j = i
    · subst hj; simp [upd_apply, Req.fresh, h2]
    · simp only [hj, if_false, upd_apply]; exact h.mr j c t
  case hk => intro c' l a b; simp [Req.fresh] at b
  case hsj => intro j c' t' _ a; simp [W, Req.fresh, hnw] at a
  case hsi => intro l c' t' v a; simp [fb, Req.fresh] at a
  case hs3 => intro l c' t' v a; simp [fb, Req.fresh] at a
  case hs4 => intro j k c' t' l v _ _ a b d; exact h.sr j k c' t' l v a b d

theorem inv_invW (h : Inv S s m) {m' : Mon D} (i : Nat) (r : Req D) (e : Eng)
    (h1 : (s.req i).pc = .free) (h2 : e = .wt ∨ e = .wb ∨ e = .wi)
    (h4 : ∀ c t, r.has c t = true → r.on c = true) (h5 : ∀ c t, r.has c t = true → t < S)
    (hm : m.Next (.callW i r.has r.data) m') :
    Inv S (s.setReq i (Req.fresh r e .look true)) m' := by
  cases hm
  have hl := h.loc i
  have hwr : e.isWr = true := by rcases h2 with rfl | rfl | rfl <;> rfl
  have hnr : e.isRd = false := by rcases h2 with rfl | rfl | rfl <;> rfl
  have hbusy : ∀ j c t, W (s.req j) c t → m.busy c t := fun j c t a =>
    ⟨j, (h.mw j c t).2 a⟩
  have hbf : ∀ c t v, m.busy c t → m.fresh c t v → m.ok c t v := by
    rintro c t v ⟨k, hk⟩ a
    exact (h.loc k).n2 c t v ((h.mw k c t).1 hk) a
  have hreq : (s.setReq i (Req.fresh r e .look true)).req = upd s.req i (Req.fresh r e .look true) := rfl
  have hT : ∀ l c t, tcov s l c t → tcov (s.setReq i (Req.fresh r e .look true)) l c t :=
    fun l c t => tcov_upd hreq (by rintro ⟨a, _⟩; exact absurd h1 a.2.1)
  have hff : ∀ c t v, m.busy c t → m.fresh c t v →
      if r.has c t = true then v = r.data c t ∨ (m.busy c t ∧ m.fresh c t v) else m.fresh c t v := by
    intro c t v a b; split
    · exact Or.inr ⟨a, b⟩
    · exact b
  apply h.mk_step i _ _ _ hreq
  case hglo =>
    have hg := h.glo.mono hT
    exact { hg with
      a1 := fun l c t a b => (hg.a1 l c t a b).imp Or.inl id
      ad := fun l c t a b => Or.inl (hg.ad l c t a b)
      a2 := fun c t a => Or.inl (hg.a2 c t a) }
  case hlj =>
    intro j hj
    have hlj := h.loc j
    refine hlj.mon_ch hT ?_ ?_ ?_ ?_ ?_ ?_
    · intro c t v a b; exact hff c t v (hbusy j c t a) b
    · intro c t v a b
      simp only at b
      split at b
      · next q =>
        rcases b with b | b
        · exact Or.inr ⟨q, b⟩
        · exact Or.inl (hbf c t v b.1 b.2)
      · exact Or.inl (hbf c t v (hbusy j c t a) b)
    · intro l c t v a; exact Or.inl (hlj.ar l c t v a)
    · intro c l t _ _ _ _ _ a; exact Or.inl a
    · intro c t v a b d f; exact f.imp (hlj.ex c t v a b d) id
    · intro c t v a; exact Or.inl a
  case hli =>
    simp only [env, Req.fresh]
    clear h hT hl hreq hff hbusy
    constructor
    case wf => constructor <;> (simp only [wiLike] at *; grind)
    all_goals (simp only [W, fb, coreDone, settled, wiLike] at *; grind)
  case hmw =>
    intro j c t
    by_cases hj : j = i
    · subst hj; simp [upd_apply, Req.fresh, hwr, W]
    · simp only [hj, if_false, upd_apply]; exact h.mw j c t
  case hmr =>
    refine h.mr_upd i _ fun c t => ?_
    simp [Req.fresh, hnr, h1]
  case hk => intro c' l a b; simp [Req.fresh] at b
  case hsj =>
    intro j c' t' _ a b
    rcases b with ⟨_, b | b⟩
    · simp [Req.fresh] at b
    · simp [Req.fresh] at b
  case hsi => intro l c' t' v a; simp [fb, Req.fresh] at a
  case hs3 => intro l c' t' v a; simp [fb, Req.fresh] at a
  case hs4 =>
    intro j k c' t' l v _ _ a b d
    exact hff c' t' v (hbusy j c' t' a) (h.sr j k c' t' l v a b d)

theorem inv_ret (h : Inv S s m) {m' : Mon D} (i : Nat) (q : Nat → Nat → Option D)
    (h1 : (s.req i).eng.isRd = true)
    (hm : m.Next (.retR i q) m') :
    Inv S (s.setReq i (s.req i).done) m' := by
  cases hm
  have hl := h.loc i
  have hw := hl.wf
  have hnw : (s.req i).eng.isWr = false := by
    cases q : (s.req i).eng <;> simp_all [Eng.isWr, Eng.isRd]
  have hreq : (s.setReq i (s.req i).done).req = upd s.req i (s.req i).done := rfl
  have hT : ∀ l c t, tcov s l c t → tcov (s.setReq i (s.req i).done) l c t :=
    fun l c t => tcov_upd hreq (by rintro ⟨a, _⟩; rw [a.1] at hnw; cases hnw)
  apply h.mk_step i _ _ _ hreq
  case hglo =>
    exact h.glo.mono hT
  case hlj =>
    intro j hj
    exact (h.loc j).mono hT
  case hli =>
    refine Loc.mono (e := env s m) ?_ hT
    simp only [env, Req.fresh, Req.done]
    generalize s.req i = r at *
    clear h hT hreq
    loc_auto hl
    case wf => wf_auto hw
  case hmw =>
    refine h.mw_upd i _ fun c t => ?_
    simp [W, Req.fresh, Req.done, hnw]
  case hmr =>
    intro j c t
    by_cases hj : j = i
    · subst hj; simp [upd_apply, Req.fresh, Req.done]
    · simp only [hj, if_false, upd_apply]; exact h.mr j c t
  case hk => intro c' l a b; simp [Req.fresh, Req.done] at b
  case hsj => intro j c' t' _ a; simp [W, Req.fresh, Req.done] at a
  case hsi => intro l c' t' v a; simp [fb, Req.fresh, Req.done] at a
  case hs3 => intro l c' t' v a; simp [fb, Req.fresh, Req.done] at a
  case hs4 => intro j k c' t' l v _ _ a b d; exact h.sr j k c' t' l v a b d

theorem inv_retFill (h : Inv S s m) {m' : Mon D} (i : Nat) (q : Nat → Nat → Option D)
    (h1 : (s.req i).pc = .oread) (h2 : (s.req i).eng = .gen) (h3 : (s.req i).excl = true)
    (h4 : ∀ c t, (s.req i).has c t = true → (s.req i).res c t ≠ none)
    (hm : m.Next (.retR i q) m') :
    Inv S (s.setReq i { s.req i with pc := .fill, toCache := (s.req i).has }) m' := by
  cases hm
  have hl := h.loc i
  have hw := hl.wf
  have hnw : (s.req i).eng.isWr = false := by simp [h2, Eng.isWr]
  generalize hr : ({ s.req i with pc := .fill, toCache := (s.req i).has } : Req D) = r'
  have hreq : (s.setReq i r').req = upd s.req i r' := rfl
  have hT : ∀ l c t, tcov s l c t → tcov (s.setReq i r') l c t :=
    fun l c t => tcov_upd hreq (by rintro ⟨a, _⟩; rw [a.1] at hnw; cases hnw)
  have hfb : ∀ l c t v, fb r' l c t v → fb (s.req i) l c t v := by
    intro l c t v a
    subst hr
    exact ⟨h2, h3, Or.inl h1, a.2.2.2.1, a.2.2.2.2.1, a.2.2.2.2.2⟩
  apply h.mk_step i _ _ _ hreq
  case hglo =>
    exact h.glo.mono hT
  case hlj =>
    intro j hj
    exact (h.loc j).mono hT
  case hli =>
    refine Loc.mono (e := env s m) ?_ hT
    have hud := hw.ud
    clear h hT hreq hfb
    subst hr
    simp only [env]
    generalize s.req i = r at *
    loc_auto hl
    case wf => wf_auto hw
  case hmw =>
    refine h.mw_upd i _ fun c t => ?_
    subst hr
    simp [W, hnw]
  case hmr =>
    intro j c t
    by_cases hj : j = i
    · subst hj; subst hr; simp [upd_apply]
    · simp only [hj, if_false, upd_apply]; exact h.mr j c t
  case hk => intro c' l a b; subst hr; exact Or.inl ⟨rfl, a, b⟩
  case hsj => intro j c' t' _ a; subst hr; have := a.1; simp only [hnw] at this; cases this
  case hsi => intro l c' t' v a j _ b d; exact h.sr j i c' t' l v b d (hfb _ _ _ _ a)
  case hs3 => intro l c' t' v a; have := a.1; simp [this, Eng.isWr]
  case hs4 => intro j k c' t' l v _ _ a b d; exact h.sr j k c' t' l v a b d

theorem inv_ack (h : Inv S s m) {m' : Mon D} (i : Nat)
    (h1 : (s.req i).pc = .xfer)
    (h2 : ∀ d t, (s.req i).toCache d t = false) (h3 : ∀ d t, (s.req i).toCore d t = false)
    (h4 : ∀ c l, (s.req i).on c = true → (s.req i).ent c = .line l →
        (s.req i).updd c = true ∧ (s.req i).need c = false)
    (h5 : (s.req i).eng = .wi → ∀ c, (s.req i).on c = true → (s.req i).ent c ≠ .none)
    (hm : m.Next (.ackW i) m') :
    Inv S (s.setReq i (s.req i).done) m' := by
  cases hm
  have hl := h.loc i
  have hw := hl.wf
  have hwr := hw.p5 h1
  have hexcl := h.wrExcl hwr (by simp [h1])
  have hnr : (s.req i).eng.isRd = false := by
    cases q : (s.req i).eng <;> simp_all [Eng.isWr, Eng.isRd]
  have hcov : ∀ c t, m.wr i c t = false ↔ ¬ W (s.req i) c t := by
    intro c t
    rw [← h.mw i c t, Bool.not_eq_true]
  have hset : ∀ c t, W (s.req i) c t → wiLike (s.req i) → settled (s.req i) c := by
    intro c t a b
    refine ⟨b, ?_⟩
    have hon := hw.ho c t a.2.2
    have hrd := hw.rd (by simp [h1]) c hon
    cases q : (s.req i).ent c with
    | unseen => exact absurd q hrd.1
    | none =>
      rcases b with b | b
      · exact absurd q (h5 b c hon)
      · exact Or.inr ⟨b, rfl⟩
    | line l => exact Or.inl (h4 c l hon q).1
  have heng : wiLike (s.req i) ∨ (s.req i).eng = .wt ∨ (s.req i).eng = .wb := by
    cases q : (s.req i).eng <;> simp_all [Eng.isWr, wiLike]
  -- WT and WB: the line of the sector
  have hline : ∀ c t, W (s.req i) c t → ((s.req i).eng = .wt ∨ (s.req i).eng = .wb) →
      ∃ l, s.holds i c l ∧ s.map l = some c ∧ s.cache l t = (s.req i).data c t ∧
        ((s.req i).eng = .wb → s.dirty l t = true) ∧ ((s.req i).eng = .wt → s.dirty l t = false) := by
    intro c t a b
    obtain ⟨l, x1, x2, x3⟩ := h.xferLine a b h1
    have hu := (h4 c l (hw.ho c t a.2.2) x1.1).1
    have := hl.wud c l t a hu x1.1
    exact ⟨l, x1, x2, hl.wca c l t a b h1 (h2 c t) x1.1, this.1, fun z => (this.2 z).1⟩
  have hreq : (s.setReq i (s.req i).done).req = upd s.req i (s.req i).done := rfl
  have hT : ∀ l c t, tcov s l c t → tcov (s.setReq i (s.req i).done) l c t :=
    fun l c t => tcov_upd hreq (by
      rintro ⟨a, b, d, _, _, f⟩
      rw [h2 c t] at f; cases f)
  have hinj := h.glo.inj
  -- the new permitted values are among the old ones
  have hsub : ∀ c t v, (if m.wr i c t = false then m.ok c t v else m.fresh c t v) → m.ok c t v := by
    intro c t v a
    split at a
    · exact a
    · next q =>
      have hW : W (s.req i) c t := by
        by_cases z : W (s.req i) c t
        · exact z
        · exact absurd ((hcov c t).2 z) q
      exact hl.n2 c t v hW a
  have hmk : ∀ c t v, m.ok c t v → (W (s.req i) c t → m.fresh c t v) →
      if m.wr i c t = false then m.ok c t v else m.fresh c t v := by
    intro c t v a b
    split
    · exact a
    · next q =>
      apply b
      by_cases z : W (s.req i) c t
      · exact z
      · exact absurd ((hcov c t).2 z) q
  apply h.mk_step i _ _ _ hreq
  case hglo =>
    have hg := h.glo.mono hT
    refine { hg with a1 := ?_, ad := ?_, a2 := ?_ }
    · intro l c t a b
      by_cases hW : W (s.req i) c t
      · have hx : m.fresh c t (s.cache l t) ∨ tcov s l c t := by
          rcases heng with e | e
          · exact hl.se c t l hW (hset c t hW e) a b
          · obtain ⟨k, _, k1, k2, _⟩ := hline c t hW e
            have := hinj l k c a k1
            subst this
            left; rw [k2]; exact hl.n1 c t hW
        rcases hx with hx | hx
        · left; exact hmk c t _ (hl.n2 c t _ hW hx) fun _ => hx
        · exact Or.inr (hT _ _ _ hx)
      · exact (hg.a1 l c t a b).imp (fun z => hmk c t _ z fun z => absurd z hW) id
    · intro l c t a b
      refine hmk c t _ (hg.ad l c t a b) fun hW => ?_
      rcases heng with e | e
      · have hx : (s.req i).eng = .wi2 ∨ (s.req i).ent c ≠ .unseen :=
          Or.inr (hw.rd (by simp [h1]) c (hw.ho c t hW.2.2)).1
        rcases hl.sd c t l hW e hx a b with z | ⟨z1, z2, z3⟩
        · exact z
        · have := (h4 c l (hw.ho c t hW.2.2) z2).1
          rw [z3] at this; cases this
      · obtain ⟨k, _, k1, k2, _⟩ := hline c t hW e
        have := hinj l k c a k1
        subst this
        show m.fresh c t (s.cache l t)
        rw [k2]; exact hl.n1 c t hW
    · intro c t a
      refine hmk c t _ (hg.a2 c t a) fun hW => ?_
      rcases heng with e | e | e
      · exact hl.wcr c t hW (settled_done hl t (hset c t hW e))
      · exact hl.wt c t hW e h1 (h3 c t)
      · obtain ⟨k, _, k1, k2, k3, _⟩ := hline c t hW (Or.inr e)
        have h' : s.dirty k t = false := a k k1
        rw [k3 e] at h'; cases h'
  case hlj =>
    intro j hj
    have hlj := h.loc j
    refine hlj.mon_ch (fresh := m.fresh) hT ?_ ?_ ?_ ?_ ?_ ?_
    · intro c t v a b; exact b
    · intro c t v a b; exact hmk c t v (hlj.n2 c t v a b) fun _ => b
    · intro l c t v a
      refine hmk c t v (hlj.ar l c t v a) fun hW => ?_
      rcases heng with e | e
      · exact h.sr i j c t l v hW (hset c t hW e) a
      · obtain ⟨k, k0, k1, _⟩ := hline c t hW e
        have hf := fb_holds hlj a
        have := hinj l k c hf.2.2 k1
        subst this
        exact absurd (h.alone hj k0 hexcl ⟨hf.1, hf.2.1⟩) id
    · intro c l t a b _ _ _ d
      refine hmk c t _ d fun hW => ?_
      rcases heng with e | e
      · exact hl.wcr c t hW (settled_done hl t (hset c t hW e))
      · obtain ⟨k, k0, k1, _⟩ := hline c t hW e
        have hf := cl_holds hlj a b
        have := hinj l k c hf.2 k1
        subst this
        exact absurd (h.alone hj k0 hexcl ⟨b, hf.1⟩) id
    · intro c t v a b d f; exact hlj.ex c t v a b d (hsub c t v f)
    · intro c t v a; exact a
  case hli =>
    have hd : Loc S (env s m) (m.exp i) (s.req i).done := by
      simp only [env, Req.fresh, Req.done]
      generalize s.req i = r at *
      clear h hT hreq hsub hmk hset hline hcov
      loc_auto hl
      case wf => wf_auto hw
    refine hd.mon_ch (fresh := m.fresh) hT ?_ ?_ ?_ ?_ ?_ ?_
    · intro c t v a b; exact b
    · intro c t v a b; simp [W, Req.done, Req.fresh] at a
    · intro l c t v a; simp [fb, Req.done, Req.fresh] at a
    · intro c l t a; simp [Req.done, Req.fresh] at a
    · intro c t v a b; simp [Req.done, Req.fresh] at b
    · intro c t v a; exact a
  case hmw =>
    intro j c t
    by_cases hj : j = i
    · subst hj; simp [upd_apply, Req.fresh, Req.done, W]
    · simp only [hj, if_false, upd_apply]; exact h.mw j c t
  case hmr =>
    refine h.mr_upd i _ fun c t => ?_
    simp [Req.fresh, Req.done, hnr]
  case hk => intro c' l a b; simp [Req.fresh, Req.done] at b
  case hsj => intro j c' t' _ a; simp [W, Req.fresh, Req.done] at a
  case hsi => intro l c' t' v a; simp [fb, Req.fresh, Req.done] at a
  case hs3 => intro l c' t' v a; simp [fb, Req.fresh, Req.done] at a
  case hs4 => intro j k c' t' l v _ _ a b d; exact h.sr j k c' t' l v a b d

/-- What a completing read returns is permitted. -/
theorem ret_ok (h : Inv S s m) (i : Nat)
    (h1 : (s.req i).pc = .cread ∨ (s.req i).pc = .oread ∧ ((s.req i).eng ≠ .wo ∨ (s.req i).dany = false) ∨
        (s.req i).pc = .over ∧ (∀ c t, (s.req i).toCache c t = false))
    (h2 : ∀ c t, (s.req i).has c t = true → (s.req i).res c t ≠ none) :
    m.Permits (.retR i (s.req i).res) := by
  intro c t hr
  obtain ⟨a, b, d, e⟩ := (h.mr i c t).1 hr
  have hl := h.loc i
  cases q : (s.req i).res c t with
  | none => exact absurd q (h2 c t e)
  | some v =>
    refine ⟨v, rfl, ?_⟩
    rcases h1 with h1 | ⟨h1, h3⟩ | ⟨h1, h3⟩
    · exact hl.r1 c t v h1 q
    · rcases hl.r2 c t v h1 q with z | ⟨z1, z2, _⟩
      · exact z
      · rcases h3 with h3 | h3
        · exact absurd z1 h3
        · rw [z2] at h3; cases h3
    · exact hl.r3 c t v h1 (h3 c t) q

end Verif.Engine
