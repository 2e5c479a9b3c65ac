import Verif.Lemma.EngineMon

namespace Verif.Engine
open Verif.EngineSpec
variable {D : Type} {S : Nat} {s : St D} {m : Mon D}

theorem inv_cerr (h : Inv S s m) (i : Nat) (h1 : (s.req i).pc = .cread) :
    Inv S (s.setReq i { (s.req i).fresh (if (s.req i).excl = true then .gen else .pt) .look
            (s.req i).excl with
          ent := (s.req i).ent, held := (s.req i).held }) m := by
  have hl := h.loc i
  obtain ⟨r, h0⟩ : ∃ r, s.req i = r := ⟨_, rfl⟩
  rw [h0] at hl h1 ⊢
  have hw := hl.wf
  have p1 := hw.p1 h1
  have hlk := hw.lk (by simp [h1])
  have hud := hw.ud
  have hgn := hw.gn
  have hg : ∀ c, r.gone c = false := by
    intro c
    cases q : r.gone c with
    | false => rfl
    | true => have := (hud c (hgn c q).1).1; rw [h1] at this; cases this
  simp only [Req.fresh]
  by_cases hx : r.excl = true
  · simp only [hx, if_true]
    apply h.loc_step i h0
    case hl =>
      clear h h0
      loc_auto hl
      case wf => wf_auto hw
    side_auto
  · simp only [hx, if_false, Bool.false_eq_true]
    apply h.loc_step i h0
    case hl =>
      clear h h0
      loc_auto hl
      case wf => wf_auto hw
    side_auto

theorem inv_errR (h : Inv S s m) {m' : Mon D} (i : Nat)
    (h1 : (s.req i).eng.isRd = true)
    (hm : m.Next (.errR i) m') :
    Inv S (s.setReq i (s.req i).done) m' := by
  cases hm
  exact inv_ret h i (fun _ _ => none) h1 (.retR i _)

/-- A read miss drops its sectors from the cache. -/
theorem inv_dropGen (h : Inv S s m) (i : Nat) (w d : Nat → Nat → Bool)
    (h1 : (s.req i).pc = .oread ∨ (s.req i).pc = .fill) (h2 : (s.req i).eng = .gen)
    (h3 : (s.req i).excl = true) (h4 : (s.req i).purged s.valid w)
    (h5 : (s.req i).purged s.dirty d) :
    d = s.dirty ∧ Inv S { s with valid := w, dirty := d } m := by
  have hl := h.loc i
  have hw := hl.wf
  have hnd : ∀ c l t, (s.req i).ent c = .line l → s.dirty l t = false := by
    intro c l t a
    refine hl.nd c l t a ?_
    rcases h1 with h1 | h1
    · exact Or.inl ⟨h1, Or.inl (by simp [h2])⟩
    · exact Or.inr (Or.inl h1)
  have hd : d = s.dirty := by
    funext l t
    have := h5 l t
    cases q : s.dirty l t with
    | false => cases q' : d l t with
      | false => rfl
      | true => rw [q, q'] at this; simp at this
    | true =>
      rw [this]
      refine ⟨q, ?_⟩
      rintro ⟨c, _, a⟩
      rw [hnd c l t a] at q; cases q
  subst hd
  refine ⟨rfl, ?_⟩
  have hheld : ∀ c l, (s.req i).ent c = .line l → s.holds i c l := by
    intro c l a
    refine ⟨a, (hw.rd ?_ c (hw.eo c (by simp [a]))).2 l a⟩
    rcases h1 with h1 | h1 <;> simp [h1]
  have hsub : ∀ l t, w l t = true → s.valid l t = true := fun l t a => ((h4 l t).1 a).1
  have hT : ∀ l c t, tcov s l c t → tcov { s with valid := w } l c t := fun l c t z => z
  apply h.mk_step i (s.req i) { s with valid := w } m (by funext j; simp only [upd_apply]; split <;> simp_all)
  case hglo =>
    have hg := h.glo
    refine { hg with dv := ?_, vm := ?_, a1 := ?_ }
    · intro l t a
      refine (h4 l t).2 ⟨hg.dv l t a, ?_⟩
      rintro ⟨c, _, b⟩
      have := hnd c l t b
      simp only [env] at a
      rw [this] at a; cases a
    · exact fun l t a => hg.vm l t (hsub l t a)
    · exact fun l c t a b => hg.a1 l c t a (hsub l t b)
  case hlj =>
    intro j hj
    refine (h.loc j).bits_ch (w := w) (d := s.dirty) (T := tcov s) (fun l c t _ => id) ?_ ?_ ?_ ?_ ?_
    · intro c l t a b e
      refine (h4 l t).2 ⟨e, ?_⟩
      rintro ⟨c', _, b'⟩
      exact h.alone hj (hheld c' l b') h3 ⟨a, b⟩
    · exact fun _ _ _ _ _ z => z
    · exact fun _ _ _ _ _ _ z => z
    · exact fun c t l _ _ _ a => Or.inl (hsub l t a)
    · exact fun _ _ _ _ _ a => Or.inl a
  case hli =>
    simp only [env] at *
    have hwk := hw.wk
    clear hT hnd h4 h5 hheld
    have hx : (env s m).valid = s.valid := rfl
    generalize s.req i = r at *
    clear h
    loc_auto hl
    case wf => exact hw
  case hmw => exact h.mw_upd i _ fun c t => ⟨Iff.rfl, fun _ => rfl⟩
  case hmr => exact h.mr_upd i _ fun c t => Iff.rfl
  case hk => intro c' l a b; exact Or.inl ⟨rfl, a, b⟩
  case hsj => intro j c' t' _ a b l v d; exact h.sr i j c' t' l v a b d
  case hsi => intro l c' t' v a j _ b d; exact h.sr j i c' t' l v b d a
  case hs3 => intro l c' t' v a; have := a.1; simp [this, Eng.isWr]
  case hs4 => intro j k c' t' l v _ _ a b d; exact h.sr j k c' t' l v a b d

theorem inv_errMiss (h : Inv S s m) {m' : Mon D} (i : Nat) (w d : Nat → Nat → Bool)
    (h1 : (s.req i).pc = .oread) (h2 : (s.req i).eng = .gen)
    (h3 : (s.req i).excl = true) (h4 : (s.req i).purged s.valid w)
    (h5 : (s.req i).purged s.dirty d) (hm : m.Next (.errR i) m') :
    Inv S { s with valid := w, dirty := d, req := upd s.req i (s.req i).done } m' :=
  inv_errR (inv_dropGen h i w d (Or.inl h1) h2 h3 h4 h5).2 i (by simp [h2, Eng.isRd]) hm

theorem inv_endFill (h : Inv S s m) (i : Nat) (h1 : (s.req i).pc = .fill) :
    Inv S (s.setReq i (s.req i).done) m := by
  have hl := h.loc i
  obtain ⟨r, h0⟩ : ∃ r, s.req i = r := ⟨_, rfl⟩
  rw [h0] at hl h1 ⊢
  have hw := hl.wf
  have h2 := (hw.p4 h1).1
  simp only [Req.fresh, Req.done]
  apply h.loc_step i h0
  case hl =>
    clear h h0
    loc_auto hl
    case wf => wf_auto hw
  side_auto

theorem inv_errFill (h : Inv S s m) (i : Nat) (w d : Nat → Nat → Bool)
    (h1 : (s.req i).pc = .fill) (h4 : (s.req i).purged s.valid w)
    (h5 : (s.req i).purged s.dirty d) :
    Inv S { s with valid := w, dirty := d, req := upd s.req i (s.req i).done } m := by
  have p4 := (h.loc i).wf.p4 h1
  exact inv_endFill (inv_dropGen h i w d (Or.inr h1) p4.1 p4.2 h4 h5).2 i h1

/-- A write completes with an error. -/
theorem inv_errW (h : Inv S s m) {m' : Mon D} (i : Nat)
    (h1 : (s.req i).eng.isWr = true) (h2 : ∀ l c t, ¬ tc (s.req i) l c t)
    (hm : m.Next (.errW i) m') :
    Inv S (s.setReq i (s.req i).done) m' := by
  cases hm
  have hl := h.loc i
  have hw := hl.wf
  have hnr : (s.req i).eng.isRd = false := by
    cases q : (s.req i).eng <;> simp_all [Eng.isWr, Eng.isRd]
  have hreq : (s.setReq i (s.req i).done).req = upd s.req i (s.req i).done := rfl
  have hT : ∀ l c t, tcov s l c t → tcov (s.setReq i (s.req i).done) l c t :=
    fun l c t => tcov_upd hreq fun a => absurd a (h2 l c t)
  apply h.mk_step i _ _ _ hreq
  case hglo => exact h.glo.mono hT
  case hlj =>
    intro j hj
    exact (h.loc j).mono hT
  case hli =>
    refine Loc.mono (e := env s m) ?_ hT
    simp only [env, Req.fresh, Req.done]
    clear h2
    generalize s.req i = r at *
    clear h hT hreq
    loc_auto hl
    case wf => wf_auto hw
  case hmw =>
    intro j c t
    by_cases hj : j = i
    · subst hj; simp [upd_apply, Req.fresh, Req.done, W]
    · simp only [hj, if_false, upd_apply]; exact h.mw j c t
  case hmr =>
    refine h.mr_upd i _ fun c t => ?_
    simp [Req.fresh, Req.done, hnr]
  case hk => intro c' l a b; simp [Req.fresh, Req.done] at b
  case hsj => intro j c' t' _ a; simp [W, Req.fresh, Req.done] at a
  case hsi => intro l c' t' v a; simp [fb, Req.fresh, Req.done] at a
  case hs3 => intro l c' t' v a; simp [fb, Req.fresh, Req.done] at a
  case hs4 => intro j k c' t' l v _ _ a b d; exact h.sr j k c' t' l v a b d

/-- A write which has dropped its sectors is like a write-invalidate write. -/
def asWi (r : Req D) : Req D :=
  { r with
    eng := .wi
    toCache := fun _ _ => false
    toCore := if r.eng = .wb then r.has else r.toCore }

/-- A write in its transfer phase drops its sectors from the cache. -/
theorem inv_clear (h : Inv S s m) (i : Nat) (w d : Nat → Nat → Bool)
    (h1 : (s.req i).pc = .xfer) (h2 : (s.req i).eng = .wt ∨ (s.req i).eng = .wb)
    (h3 : ∀ c, (s.req i).updd c = false)
    (h4 : (s.req i).purged s.valid w) (h5 : (s.req i).purged s.dirty d)
    (h6 : ∀ c l t, (s.req i).has c t = true → (s.req i).ent c = .line l →
      s.dirty l t = false ∨ (s.req i).eng = .wt ∧ (s.req i).toCore c t = false) :
    Inv S { s with valid := w, dirty := d, req := upd s.req i (asWi (s.req i)) } m := by
  have hl := h.loc i
  have hw := hl.wf
  have hwr := hw.p5 h1
  have hexcl := h.wrExcl hwr (by simp [h1])
  have hlink : ∀ c l, (s.req i).ent c = .line l → s.map l = some c :=
    fun c l a => hl.mapped a (Or.inl (by simp only [wiLike]; grind))
  have hheld : ∀ c l, (s.req i).ent c = .line l → s.holds i c l :=
    fun c l a => ⟨a, (hw.rd (by simp [h1]) c (hw.eo c (by simp [a]))).2 l a⟩
  have hinj := h.glo.inj
  have hsub : ∀ l t, w l t = true → s.valid l t = true := fun l t a => ((h4 l t).1 a).1
  have hsubd : ∀ l t, d l t = true → s.dirty l t = true := fun l t a => ((h5 l t).1 a).1
  -- the sectors of the request are gone
  have hno : ∀ c l t, (s.req i).has c t = true → s.map l = some c → w l t = false ∧ d l t = false := by
    intro c l t a b
    have hW : W (s.req i) c t := ⟨hwr, by simp [h1], a⟩
    obtain ⟨k, x1, x2, _⟩ := h.xferLine hW h2 h1
    have : l = k := hinj l k c b x2
    subst this
    have y1 := h4 l t
    have y2 := h5 l t
    constructor
    · cases q : w l t with
      | false => rfl
      | true => exact absurd ⟨c, a, x1.1⟩ (y1.1 q).2
    · cases q : d l t with
      | false => rfl
      | true => exact absurd ⟨c, a, x1.1⟩ (y2.1 q).2
  have hWW : ∀ c t, W (asWi (s.req i)) c t ↔ W (s.req i) c t := by
    intro c t
    exact ⟨fun z => ⟨hwr, z.2⟩, fun z => ⟨rfl, z.2⟩⟩
  generalize hs' : ({ s with valid := w, dirty := d, req := upd s.req i (asWi (s.req i)) } : St D) = s'
  have hreq : s'.req = upd s.req i (asWi (s.req i)) := by rw [← hs']
  have hT : ∀ l c t, s.map l = some c → w l t = true → tcov s l c t → tcov s' l c t := by
    rintro l c t hml b ⟨j, hj⟩
    by_cases q : j = i
    · subst q
      have := (hno c l t hj.1.2.2 hml).1
      rw [b] at this; cases this
    · exact ⟨j, by rw [hreq]; simpa [upd_apply, q] using hj⟩
  have hT2 : ∀ l c t, w l t = true → tcov s l c t → tcov s' l c t := by
    rintro l c t b ⟨j, hj⟩
    refine hT l c t ?_ b ⟨j, hj⟩
    exact (h.loc j).mapped hj.2.1 (Or.inl (by simp [wiLike, hj.2.2.2.1]))
  have henv : env s' m = { env s m with valid := w, dirty := d, T := tcov s' } := by
    rw [← hs']; rfl
  apply h.mk_step i _ s' m hreq
  case hglo =>
    rw [henv]
    have hg := h.glo
    refine { hg with dv := ?_, vm := ?_, a1 := ?_, ad := ?_, a2 := ?_ }
    · intro l t a
      have := (h5 l t).1 a
      exact (h4 l t).2 ⟨hg.dv l t this.1, this.2⟩
    · exact fun l t a => hg.vm l t (hsub l t a)
    · exact fun l c t a b => (hg.a1 l c t a (hsub l t b)).imp id (hT l c t a b)
    · exact fun l c t a b => hg.ad l c t a (hsubd l t b)
    · intro c t a
      by_cases q : ∃ l, s.map l = some c ∧ s.dirty l t = true
      · obtain ⟨l, q1, q2⟩ := q
        have q3 : d l t = false := a l q1
        have q4 : ∃ c', (s.req i).has c' t = true ∧ (s.req i).ent c' = .line l := by
          by_cases z : ∃ c', (s.req i).has c' t = true ∧ (s.req i).ent c' = .line l
          · exact z
          · have := (h5 l t).2 ⟨q2, z⟩; rw [q3] at this; cases this
        obtain ⟨c', q4, q5⟩ := q4
        have : c' = c := by have := hlink c' l q5; rw [q1] at this; cases this; rfl
        subst this
        rcases h6 c' l t q4 q5 with z | ⟨z1, z2⟩
        · rw [z] at q2; cases q2
        · have hW : W (s.req i) c' t := ⟨hwr, by simp [h1], q4⟩
          exact hl.n2 c' t _ hW (hl.wt c' t hW z1 h1 z2)
      · apply hg.a2
        intro l hml
        cases z : s.dirty l t with
        | false => exact z
        | true => exact absurd ⟨l, hml, z⟩ q
  case hlj =>
    intro j hj
    rw [henv]
    refine (h.loc j).bits_ch (w := w) (d := d) (T := tcov s') (fun l c t => hT2 l c t) ?_ ?_ ?_ ?_ ?_
    · intro c l t a b e
      refine (h4 l t).2 ⟨e, ?_⟩
      rintro ⟨c', _, b'⟩
      exact h.alone hj (hheld c' l b') hexcl ⟨a, b⟩
    · exact fun _ l t _ _ z => hsubd l t z
    · intro c l t a b _ e
      refine (h5 l t).2 ⟨e, ?_⟩
      rintro ⟨c', _, b'⟩
      exact h.alone hj (hheld c' l b') hexcl ⟨a, b⟩
    · exact fun c t l _ _ _ a => Or.inl (hsub l t a)
    · exact fun _ t l _ _ a => Or.inl (hsubd l t a)
  case hli =>
    rw [henv]
    have hwk := hw.wk
    have hud := hw.ud
    have hgn := hw.gn
    have hndd := hw.nd
    have hwt := hl.wt
    simp only [env] at *
    clear henv hreq hs' hT hT2 h6 hsub hsubd h4 h5 hheld hinj hWW
    simp only [asWi]
    generalize s.req i = r at *
    clear h
    loc_auto hl
    case wf => wf_auto hw
  case hmw => exact h.mw_upd i _ fun c t => ⟨hWW c t, fun _ => rfl⟩
  case hmr =>
    refine h.mr_upd i _ fun c t => ?_
    simp only [asWi]
    rcases h2 with h2 | h2 <;> simp [h2, Eng.isRd]
  case hk => intro c' l a b; exact Or.inl ⟨rfl, a, b⟩
  case hsj =>
    intro j c' t' _ _ b
    rcases b.2 with z | z
    · simp only [asWi] at z; rw [h3] at z; cases z
    · simp [asWi] at z
  case hsi => intro l c' t' v a; have := a.1; simp [asWi] at this
  case hs3 => intro l c' t' v a; have := a.1; simp [asWi] at this
  case hs4 => intro j k c' t' l v _ _ a b d; exact h.sr j k c' t' l v a b d

theorem setReq_setReq (s : St D) (i : Nat) (r r' : Req D) :
    (s.setReq i r).setReq i r' = s.setReq i r' := by
  simp only [St.setReq]
  congr 1
  funext j
  simp only [upd_apply]
  split <;> rfl

/-- What is left of a request which is over does not matter. -/
theorem inv_rest (h : Inv S s m) (i : Nat) (h1 : (s.req i).pc = .free) (r' : Req D) :
    Inv S (s.setReq i r'.done) m := by
  have hl := h.loc i
  obtain ⟨r, h0⟩ : ∃ r, s.req i = r := ⟨_, rfl⟩
  rw [h0] at hl h1
  have hw := hl.wf
  simp only [Req.fresh, Req.done]
  apply h.loc_step i h0
  case hl =>
    clear h h0
    constructor
    case wf => constructor <;> (simp only [wiLike] at *; grind)
    all_goals (clear hl hw; simp only [W, fb, coreDone, settled, wiLike] at *; grind)
  side_auto

theorem inv_errWr (h : Inv S s m) {m' : Mon D} (i : Nat) (w d : Nat → Nat → Bool)
    (h1 : (s.req i).pc = .xfer) (h2 : (s.req i).eng = .wt ∨ (s.req i).eng = .wb)
    (h3 : ∀ c, (s.req i).updd c = false)
    (h4 : (s.req i).purged s.valid w) (h5 : (s.req i).purged s.dirty d)
    (h6 : ∀ c l t, (s.req i).has c t = true → (s.req i).ent c = .line l →
      s.dirty l t = false ∨ (s.req i).eng = .wt ∧ (s.req i).toCore c t = false)
    (hm : m.Next (.errW i) m') :
    Inv S { s with valid := w, dirty := d, req := upd s.req i (s.req i).done } m' := by
  have a := inv_clear h i w d h1 h2 h3 h4 h5 h6
  have b := inv_errW a i (by simp [upd_apply, asWi, Eng.isWr])
    (by intro l c t z; have := z.2.2.2.1; simp [upd_apply, asWi] at this) hm
  have c := inv_rest b i (by simp [St.setReq, upd_apply, Req.done, Req.fresh]) (s.req i)
  rw [setReq_setReq] at c
  have e : ∀ j, upd (upd s.req i (asWi (s.req i))) i (s.req i).done j = upd s.req i (s.req i).done j := by
    intro j; simp only [upd_apply]; split <;> rfl
  simp only [St.setReq, funext e] at c
  exact c

/-- A write-invalidate write with nothing left to drop. -/
theorem inv_settle (h : Inv S s m) (i : Nat) (h1 : (s.req i).pc = .xfer)
    (h2 : (s.req i).eng = .wi) (h3 : ∀ d t, (s.req i).toCore d t = false)
    (h4 : ∀ d t, (s.req i).toCache d t = false)
    (h5 : ∀ c, (s.req i).updd c = false)
    (h6 : ∀ c, (s.req i).on c = true → ∃ l, (s.req i).ent c = .line l)
    (h7 : ∀ c l t, (s.req i).has c t = true → (s.req i).ent c = .line l →
      s.valid l t = false ∧ s.dirty l t = false) :
    Inv S (s.setReq i { s.req i with updd := (s.req i).on }) m := by
  have hl := h.loc i
  have hw0 := hl.wf
  have hexcl := h.wrExcl (hw0.p5 h1) (by simp [h1])
  have hlink : ∀ c l, (s.req i).ent c = .line l → s.map l = some c := by
    intro c l a
    refine (hl.link c l a).1 ?_
    cases q : (s.req i).gone c with
    | false => rfl
    | true => have := (hw0.gn c q).1; rw [h5] at this; cases this
  have hheld : ∀ c l, (s.req i).ent c = .line l → s.holds i c l :=
    fun c l a => ⟨a, (hw0.rd (by simp [h1]) c (hw0.eo c (by simp [a]))).2 l a⟩
  have hfb : ∀ c t j l v, (s.req i).on c = true → j ≠ i → ¬ fb (s.req j) l c t v := by
    intro c t j l v a b z
    obtain ⟨k, hk⟩ := h6 c a
    have := fb_holds (h.loc j) z
    have e : l = k := h.glo.inj l k c this.2.2 (hlink c k hk)
    subst e
    exact h.alone b (hheld c l hk) hexcl ⟨this.1, this.2.1⟩
  have hno : ∀ c l t, (s.req i).has c t = true → s.map l = some c →
      s.valid l t = false ∧ s.dirty l t = false := by
    intro c l t a b
    obtain ⟨k, hk⟩ := h6 c (hw0.ho c t a)
    have e : l = k := h.glo.inj l k c b (hlink c k hk)
    subst e
    exact h7 c l t a hk
  have hud := hw0.ud
  have hgn := hw0.gn
  have hnd := hw0.nd
  have hho := hw0.ho
  clear h7 hw0
  obtain ⟨r, h0⟩ : ∃ r, s.req i = r := ⟨_, rfl⟩
  rw [h0] at hl h1 h2 h3 h4 h5 h6 hud hgn hnd hho hexcl ⊢
  simp only [h0] at hfb hno
  have hw := hl.wf
  apply h.loc_step i h0
  case hl =>
    clear h h0 hheld hlink hfb
    loc_auto hl
    case wf => wf_auto hw
  case hs1 => intro c t a b; exact Or.inr fun j l v x => hfb c t j l v (hho c t a.2.2) x
  case hk => intro c l a b; exact Or.inl ⟨rfl, by simpa [St.holds, h0] using ⟨a, b⟩⟩
  case htc => simp only [tc]; grind
  case hs2 => simp only [fb]; grind
  case hs3 => simp only [fb]; grind
  case hw => exact fun _ _ => ⟨Iff.rfl, fun _ => rfl⟩
  case hr => exact fun _ _ => Iff.rfl

theorem inv_ackErr (h : Inv S s m) {m' : Mon D} (i : Nat) (w d : Nat → Nat → Bool)
    (h1 : (s.req i).pc = .xfer) (h2 : (s.req i).eng = .wt)
    (h2' : ∀ c t, (s.req i).toCore c t = false)
    (h3 : ∀ c, (s.req i).updd c = false)
    (h4 : (s.req i).purged s.valid w) (h5 : (s.req i).purged s.dirty d)
    (hm : m.Next (.ackW i) m') :
    Inv S { s with valid := w, dirty := d, req := upd s.req i (s.req i).done } m' := by
  have hw := (h.loc i).wf
  have hent : ∀ c, (s.req i).on c = true → ∃ l, (s.req i).ent c = .line l := by
    intro c a
    have x := (hw.rd (by simp [h1]) c a).1
    have y := hw.mp (by simp [h2]) c
    cases q : (s.req i).ent c with
    | unseen => exact absurd q x
    | none => exact absurd q y
    | line l => exact ⟨l, rfl⟩
  have hnd : ∀ c, (s.req i).need c = false := by
    intro c
    cases q : (s.req i).need c with
    | false => rfl
    | true =>
      rcases (hw.nd c q).2.2 with z | z
      · rw [h1] at z; cases z.1
      · rw [h3] at z; cases z.2
  have a := inv_clear h i w d h1 (Or.inl h2) h3 h4 h5 (fun c l t _ _ => Or.inr ⟨h2, h2' c t⟩)
  have b := inv_settle a i (by simp [upd_apply, asWi, h1]) (by simp [upd_apply, asWi])
    (by intro c t; simp [upd_apply, asWi, h2, h2']) (by intro c t; simp [upd_apply, asWi])
    (by intro c; simp [upd_apply, asWi, h3])
    (by intro c; simpa [upd_apply, asWi] using hent c)
    (by
      intro c l t x y
      simp only [upd_apply, asWi, if_true] at x y
      have z1 := h4 l t
      have z2 := h5 l t
      show w l t = false ∧ d l t = false
      constructor
      · cases q : w l t with
        | false => rfl
        | true => exact absurd ⟨c, x, y⟩ (z1.1 q).2
      · cases q : d l t with
        | false => rfl
        | true => exact absurd ⟨c, x, y⟩ (z2.1 q).2)
  have b' := inv_ack b i (by simp [upd_apply, St.setReq, asWi, h1])
    (by intro c t; simp [upd_apply, St.setReq, asWi])
    (by intro c t; simp [upd_apply, St.setReq, asWi, h2, h2'])
    (by intro c l x y; simp [upd_apply, St.setReq, asWi] at x y ⊢; exact ⟨x, hnd c⟩)
    (by
      intro _ c x
      simp [upd_apply, St.setReq, asWi] at x ⊢
      obtain ⟨l, hl⟩ := hent c x
      simp [hl]) hm
  have c := inv_rest b' i (by simp [St.setReq, upd_apply, Req.done, Req.fresh]) (s.req i)
  rw [setReq_setReq, setReq_setReq] at c
  have e : ∀ j, upd (upd s.req i (asWi (s.req i))) i (s.req i).done j = upd s.req i (s.req i).done j := by
    intro j; simp only [upd_apply]; split <;> rfl
  simp only [St.setReq, funext e] at c
  exact c

theorem inv_unmapFree (h : Inv S s m) (l : Nat) (h1 : ∀ t, s.valid l t = false)
    (h2 : ∀ j, ¬ s.refs j l) : Inv S { s with map := upd s.map l none } m := by
  have hdl : ∀ t, s.dirty l t = false := by
    intro t
    cases q : s.dirty l t with
    | false => rfl
    | true => have := h.glo.dv l t q; simp only [env] at this; rw [h1 t] at this; cases this
  have hv : ∀ k t, s.valid k t = if k = l then false else s.valid k t := by
    intro k t; split
    · next e => subst e; exact h1 t
    · rfl
  have hloc : ∀ j, Loc S (env { s with map := upd s.map l none } m) (m.exp j) (s.req j) := by
    intro j
    exact (h.loc j).map_ch (l0 := l) (o := none) (w := s.valid) (T := tcov s) (fun _ _ _ => id)
      (fun c z => h2 j ⟨c, z⟩) hv hdl
  refine ⟨?_, hloc, h.lock, h.sr, h.mw, h.mr⟩
  have hg := h.glo
  refine { hg with inj := ?_, vm := ?_, a1 := ?_, ad := ?_, a2 := ?_ }
  · have := hg.inj; simp only [env] at *; clear h hg hloc h2; grind
  · have := hg.vm; simp only [env] at *; clear h hg hloc h2; grind
  · intro k c t a b
    refine hg.a1 k c t ?_ b
    by_cases q : k = l
    · subst q; simp [env, upd_apply] at a
    · simpa [env, upd_apply, q] using a
  · have := hg.ad; simp only [env] at *; clear h hg hloc h2; grind
  · intro c t a
    apply hg.a2
    intro k hk
    by_cases q : k = l
    · subst q; exact hdl t
    · exact a k (by simpa [env, upd_apply, q] using hk)

end Verif.Engine
