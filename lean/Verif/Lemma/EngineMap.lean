import Verif.Lemma.EngineGlobal

namespace Verif.Engine
open Verif.EngineSpec
variable {D : Type} {S : Nat} {s : St D} {m : Mon D}

theorem inv_remap (h : Inv S s m) (i c l : Nat) (h1 : (s.req i).pc = .look)
    (h2 : (s.req i).on c = true) (h3 : (s.req i).ent c = .unseen) (h4 : (s.req i).excl = true)
    (h5 : (s.req i).eng = .gen ∨ (s.req i).eng = .wt ∨ (s.req i).eng = .wb)
    (h6 : ∀ k, s.map k ≠ some c) (h7 : ∀ j, ¬ s.refs j l) (h8 : ∀ t, s.dirty l t = false) :
    Inv S { s with
          map := upd s.map l (some c)
          valid := fun k t => if k = l then false else s.valid k t
          req := upd s.req i
            { s.req i with
              ent := upd (s.req i).ent c (.line l)
              held := upd (s.req i).held c true } } m := by
  have hl := h.loc i
  have hw := hl.wf
  have hnr : ∀ j d, (s.req j).ent d ≠ .line l := fun j d q => h7 j ⟨d, q⟩
  generalize hs' : ({ s with
          map := upd s.map l (some c)
          valid := fun k t => if k = l then false else s.valid k t
          req := upd s.req i
            { s.req i with
              ent := upd (s.req i).ent c (.line l)
              held := upd (s.req i).held c true } } : St D) = s'
  have hreq : s'.req = upd s.req i
            { s.req i with
              ent := upd (s.req i).ent c (.line l)
              held := upd (s.req i).held c true } := by
    rw [← hs']
  have hT : ∀ k d u, tcov s k d u → tcov s' k d u := fun k d u => tcov_upd hreq (by
    simp only [tc]; grind)
  have henv : env s' m = { env s m with
      map := upd (env s m).map l (some c)
      valid := fun k t => if k = l then false else s.valid k t
      T := tcov s' } := by rw [← hs']; rfl
  have hinj := h.glo.inj
  apply h.mk_step i _ s' m hreq
  case hglo =>
    rw [henv]
    have hg := h.glo
    refine { inj := ?_, dv := ?_, vm := ?_, a1 := ?_, ad := ?_, a2 := ?_ }
    · simp only [env] at *; grind
    · have := hg.dv; simp only [env] at *; grind
    · have := hg.vm; simp only [env] at *; grind
    · have := hg.a1; simp only [env] at *; grind
    · have := hg.ad; simp only [env] at *; grind
    · have := hg.a2; simp only [env] at *; grind
  case hlj =>
    intro j hj
    rw [henv]
    exact (h.loc j).map_ch hT (hnr j) (fun k t => rfl) h8
  case hli =>
    rw [henv]
    have hun := hl.uniq
    have hni := hnr i
    have hlkd := hw.lkd h1
    simp only [env] at *
    generalize s.req i = r at *
    clear h henv hreq hnr h7
    loc_auto hl
    case wf => wf_auto hw
  case hmw => exact h.mw_upd i _ fun c t => ⟨Iff.rfl, fun _ => rfl⟩
  case hmr => exact h.mr_upd i _ fun c t => Iff.rfl
  case hk =>
    intro c' l' a b
    by_cases e : l' = l
    · subst e; right; intro j d _ q; exact absurd q.1 (hnr j d)
    · left; simp only [St.holds, upd_apply] at *; grind
  case hsj =>
    intro j c' t' _ a b
    have := b.1
    simp only [wiLike] at this; grind
  case hsi =>
    intro l' c' t' v a
    have := a.2.2.1
    simp only at this; grind
  case hs3 =>
    intro l' c' t' v a
    have := a.2.2.1
    simp only at this; grind
  case hs4 => intro j k c' t' l v _ _ a b d; exact h.sr j k c' t' l v a b d

theorem inv_drop (h : Inv S s m) (i c l : Nat) (h1 : (s.req i).pc = .look)
    (h5 : (s.req i).eng = .gen ∨ (s.req i).eng = .wt ∨ (s.req i).eng = .wb)
    (h3 : s.holds i c l) (h6 : ∀ t, s.valid l t = false) (h7 : ∀ j, j ≠ i → ¬ s.refs j l) :
    Inv S { s with
          map := upd s.map l none
          req := upd s.req i
            { s.req i with
              ent := upd (s.req i).ent c .unseen
              held := upd (s.req i).held c false } } m := by
  have hl := h.loc i
  have hw := hl.wf
  have hnr : ∀ j d, j ≠ i → (s.req j).ent d ≠ .line l := fun j d e q => h7 j e ⟨d, q⟩
  have h8 : ∀ t, s.dirty l t = false := by
    intro t
    cases q : s.dirty l t with
    | false => rfl
    | true => have := h.glo.dv l t q; simp only [env, h6] at this; cases this
  generalize hs' : ({ s with
          map := upd s.map l none
          req := upd s.req i
            { s.req i with
              ent := upd (s.req i).ent c .unseen
              held := upd (s.req i).held c false } } : St D) = s'
  have hreq : s'.req = upd s.req i
            { s.req i with
              ent := upd (s.req i).ent c .unseen
              held := upd (s.req i).held c false } := by
    rw [← hs']
  have hT : ∀ k d u, tcov s k d u → tcov s' k d u := fun k d u => tcov_upd hreq (by
    simp only [tc]; grind)
  have hwv : s.valid = fun k t => if k = l then false else s.valid k t := by
    funext k t; split
    · next e => rw [e, h6]
    · rfl
  have henv : env s' m = { env s m with
      map := upd (env s m).map l none
      valid := fun k t => if k = l then false else s.valid k t
      T := tcov s' } := by
    rw [← hwv, ← hs']; rfl
  have hinj := h.glo.inj
  obtain ⟨he1, he2⟩ := h3
  have hmap : s.map l = some c := hl.mapped he1 (Or.inr (by simp [h1]))
  apply h.mk_step i _ s' m hreq
  case hglo =>
    rw [henv]
    have hg := h.glo
    refine { inj := ?_, dv := ?_, vm := ?_, a1 := ?_, ad := ?_, a2 := ?_ }
    · simp only [env] at *; grind
    · have := hg.dv; simp only [env] at *; grind
    · have := hg.vm; simp only [env] at *; grind
    · have := hg.a1; simp only [env] at *; grind
    · have := hg.ad; simp only [env] at *; grind
    · have := hg.a2; simp only [env] at *; grind
  case hlj =>
    intro j hj
    rw [henv]
    exact (h.loc j).map_ch hT (fun d => hnr j d hj) (fun k t => rfl) h8
  case hli =>
    rw [henv]
    have hun := hl.uniq
    have hlkd := hw.lkd h1
    clear hwv
    simp only [env] at *
    generalize s.req i = r at *
    clear h henv hreq hnr h7
    loc_auto hl
    case wf => wf_auto hw
  case hmw => exact h.mw_upd i _ fun c t => ⟨Iff.rfl, fun _ => rfl⟩
  case hmr => exact h.mr_upd i _ fun c t => Iff.rfl
  case hk =>
    intro c' l' a b
    left; simp only [St.holds, upd_apply] at *; grind
  case hsj =>
    intro j c' t' _ a b
    have := b.1
    simp only [wiLike] at this; grind
  case hsi =>
    intro l' c' t' v a
    have := a.2.2.1
    simp only at this; grind
  case hs3 =>
    intro l' c' t' v a
    have := a.2.2.1
    simp only at this; grind
  case hs4 => intro j k c' t' l v _ _ a b d; exact h.sr j k c' t' l v a b d

theorem inv_unmap (h : Inv S s m) (i c l : Nat) (h1 : (s.req i).pc = .xfer)
    (h5 : (s.req i).eng = .wi ∨ (s.req i).eng = .wi2)
    (h3 : (s.req i).ent c = .line l) (h4 : (s.req i).updd c = true)
    (h2 : (s.req i).gone c = false)
    (h6 : ∀ t, s.valid l t = false) (h7 : ∀ j, j ≠ i → ¬ s.refs j l) :
    Inv S { s with
          map := upd s.map l none
          req := upd s.req i { s.req i with gone := upd (s.req i).gone c true } } m := by
  have hl := h.loc i
  have hw := hl.wf
  have hnr : ∀ j d, j ≠ i → (s.req j).ent d ≠ .line l := fun j d e q => h7 j e ⟨d, q⟩
  have h8 : ∀ t, s.dirty l t = false := by
    intro t
    cases q : s.dirty l t with
    | false => rfl
    | true => have := h.glo.dv l t q; simp only [env, h6] at this; cases this
  generalize hs' : ({ s with
          map := upd s.map l none
          req := upd s.req i { s.req i with gone := upd (s.req i).gone c true } } : St D) = s'
  have hreq : s'.req = upd s.req i
      { s.req i with gone := upd (s.req i).gone c true } := by
    rw [← hs']
  have hT : ∀ k d u, tcov s k d u → tcov s' k d u := fun k d u => tcov_upd hreq id
  have hwv : s.valid = fun k t => if k = l then false else s.valid k t := by
    funext k t; split
    · next e => rw [e, h6]
    · rfl
  have henv : env s' m = { env s m with
      map := upd (env s m).map l none
      valid := fun k t => if k = l then false else s.valid k t
      T := tcov s' } := by
    rw [← hwv, ← hs']; rfl
  have hinj := h.glo.inj
  have hmap : s.map l = some c := (hl.link c l h3).1 h2
  have hheld := (hw.rd (by simp [h1]) c (hw.eo c (by simp [h3]))).2 l h3
  apply h.mk_step i _ s' m hreq
  case hglo =>
    rw [henv]
    have hg := h.glo
    refine { inj := ?_, dv := ?_, vm := ?_, a1 := ?_, ad := ?_, a2 := ?_ }
    · simp only [env] at *; grind
    · have := hg.dv; simp only [env] at *; grind
    · have := hg.vm; simp only [env] at *; grind
    · have := hg.a1; simp only [env] at *; grind
    · have := hg.ad; simp only [env] at *; grind
    · have := hg.a2; simp only [env] at *; grind
  case hlj =>
    intro j hj
    rw [henv]
    exact (h.loc j).map_ch hT (fun d => hnr j d hj) (fun k t => rfl) h8
  case hli =>
    rw [henv]
    have hun := hl.uniq
    clear hwv
    simp only [env] at *
    generalize s.req i = r at *
    clear h henv hreq hnr h7
    loc_auto hl
    case wf => wf_auto hw
  case hmw => exact h.mw_upd i _ fun c t => ⟨Iff.rfl, fun _ => rfl⟩
  case hmr => exact h.mr_upd i _ fun c t => Iff.rfl
  case hk => intro c' l a b; exact Or.inl ⟨rfl, a, b⟩
  case hsj => intro j c' t' _ a b l v d; exact h.sr i j c' t' l v a b d
  case hsi => intro l c' t' v a j _ b d; exact h.sr j i c' t' l v b d a
  case hs3 => intro l c' t' v a; have := a.1; simp only at this; simp [this, Eng.isWr]
  case hs4 => intro j k c' t' l v _ _ a b d; exact h.sr j k c' t' l v a b d

theorem inv_goWrite (h : Inv S s m) (i : Nat) (p : Bool) (w : Nat → Nat → Bool)
    (h1 : (s.req i).pc = .look) (h2 : (s.req i).ready)
    (h3 : (s.req i).eng.isWr = true)
    (h4 : p = true → (s.req i).eng = .wt ∧ s.noDirty (s.req i))
    (h5 : ∀ l t, w l t = true ↔ s.valid l t = true ∨
        p = true ∧ ∃ c, (s.req i).has c t = true ∧ (s.req i).ent c = .line l) :
    Inv S { s with
          valid := w
          req := upd s.req i
            { s.req i with
              pc := .xfer
              toCache := fun c t => (s.req i).has c t &&
                ((s.req i).eng == .wt || (s.req i).eng == .wb)
              toCore := fun c t => (s.req i).has c t &&
                ((s.req i).eng == .wt || (s.req i).eng == .wi) } } m := by
  have hl := h.loc i
  have hw := hl.wf
  generalize hr : ({ s.req i with
              pc := .xfer
              toCache := fun c t => (s.req i).has c t &&
                ((s.req i).eng == .wt || (s.req i).eng == .wb)
              toCore := fun c t => (s.req i).has c t &&
                ((s.req i).eng == .wt || (s.req i).eng == .wi) } : Req D) = r'
  have hW : ∀ c t, W r' c t ↔ W (s.req i) c t := by
    intro c t; rw [← hr]; simp [W, h1]
  have hnew : ∀ c l t, (s.req i).has c t = true → (s.req i).ent c = .line l → p = true →
      tc r' l c t ∧ s.map l = some c ∧ t < S := by
    intro c l t a b hp
    have he := (h4 hp).1
    have hh := (h2 c (hw.ho c t a)).2 l b
    have hW' : W r' c t := (hW c t).2 ⟨h3, by simp [h1], a⟩
    subst hr
    exact ⟨⟨hW', b, hh, he, rfl, by simp [a, he]⟩,
      hl.mapped b (Or.inr (by simp [h1])), hl.hs c t a⟩
  have hset : ∀ c, settled r' c ↔ settled (s.req i) c := by
    intro c; rw [← hr]; exact Iff.rfl
  generalize hs' : ({ s with valid := w, req := upd s.req i r' } : St D) = s'
  have hreq : s'.req = upd s.req i r' := by rw [← hs']
  have hT : ∀ k d u, tcov s k d u → tcov s' k d u := fun k d u => tcov_upd hreq (by
    simp only [tc, h1]; grind)
  have hTi : ∀ l c t, tc r' l c t → tcov s' l c t := fun l c t q =>
    ⟨i, by rw [hreq, upd_apply, if_pos rfl]; exact q⟩
  have henv : env s' m = { env s m with
      valid := w
      dirty := (env s m).dirty
      T := tcov s' } := by rw [← hs']; rfl
  have hinj := h.glo.inj
  apply h.mk_step i _ s' m hreq
  case hglo =>
    rw [henv]
    have hg := h.glo
    refine { hg with dv := ?_, vm := ?_, a1 := ?_ }
    · intro l t a; exact (h5 l t).2 (Or.inl (hg.dv l t a))
    · intro l t a
      rcases (h5 l t).1 a with q | ⟨hp, c, q1, q2⟩
      · exact hg.vm l t q
      · obtain ⟨_, k1, k2⟩ := hnew c l t q1 q2 hp
        exact ⟨by simp [env, k1], k2⟩
    · intro l c t a b
      rcases (h5 l t).1 b with q | ⟨hp, d, q1, q2⟩
      · exact (hg.a1 l c t a q).imp id (hT l c t)
      · obtain ⟨k0, k1, k2⟩ := hnew d l t q1 q2 hp
        have : c = d := by simp only [env] at a; rw [k1] at a; cases a; rfl
        subst this
        exact Or.inr (hTi _ _ _ k0)
  case hlj =>
    intro j hj
    rw [henv]
    have hlj := h.loc j
    apply hlj.bits_ch (fun l c t _ => hT l c t)
    · exact fun _ l t _ _ a => (h5 l t).2 (Or.inl a)
    · exact fun _ _ _ _ _ a => a
    · exact fun _ _ _ _ _ _ a => a
    · intro c t l a b e f
      rcases (h5 l t).1 f with q | ⟨hp, d, q1, q2⟩
      · exact Or.inl q
      · obtain ⟨k0, k1, k2⟩ := hnew d l t q1 q2 hp
        have : c = d := by simp only [env] at e; rw [k1] at e; cases e; rfl
        subst this
        exact Or.inr (Or.inr (hTi _ _ _ k0))
    · exact fun _ _ _ _ _ a => Or.inl a
  case hli =>
    rw [henv]
    have hpw : ∀ l t, (s.req i).eng ≠ .wt → w l t = true → s.valid l t = true := by
      intro l t a b
      rcases (h5 l t).1 b with q | ⟨hp, _⟩
      · exact q
      · exact absurd (h4 hp).1 a
    have hvw : ∀ l t, s.valid l t = true → w l t = true := fun l t a => (h5 l t).2 (Or.inl a)
    subst hr
    simp only [env, Req.ready] at *
    generalize s.req i = r at *
    have hlkd := hw.lkd h1
    clear h henv hreq hnew h5 hTi h4 hW hset
    loc_auto hl
    case wf => wf_auto hw
  case hmw => exact h.mw_upd i _ fun c t => ⟨hW c t, fun _ => by rw [← hr]⟩
  case hmr =>
    refine h.mr_upd i _ fun c t => ?_
    subst hr
    constructor
    · rintro ⟨a, _⟩; simp only at a; cases hq : (s.req i).eng <;> simp_all [Eng.isWr, Eng.isRd]
    · rintro ⟨a, _⟩; cases hq : (s.req i).eng <;> simp_all [Eng.isWr, Eng.isRd]
  case hk => intro c' l a b; subst hr; exact Or.inl ⟨rfl, a, b⟩
  case hsj =>
    intro j c' t' _ a b l v d
    exact h.sr i j c' t' l v ((hW c' t').1 a) ((hset c').1 b) d
  case hsi =>
    intro l c' t' v a
    have := a.2.2.1
    subst hr; simp at this
  case hs3 =>
    intro l c' t' v a
    have := a.2.2.1
    subst hr; simp at this
  case hs4 => intro j k c' t' l v _ _ a b d; exact h.sr j k c' t' l v a b d

theorem inv_update (h : Inv S s m) (i c l : Nat) (n : Bool) (h1 : (s.req i).pc = .xfer)
    (h2 : ∀ d t, (s.req i).toCache d t = false) (h3 : ∀ d t, (s.req i).toCore d t = false)
    (h4 : (s.req i).ent c = .line l) (h5 : (s.req i).updd c = false) :
    Inv S { s with
          valid := fun k t => if k = l ∧ (s.req i).has c t = true then
            ((s.req i).eng == .wt || (s.req i).eng == .wb) else s.valid k t
          dirty := fun k t => if k = l ∧ (s.req i).has c t = true then
            ((s.req i).eng == .wb) else s.dirty k t
          req := upd s.req i
            { s.req i with
              updd := upd (s.req i).updd c true
              need := upd (s.req i).need c n } } m := by
  have hl := h.loc i
  have hw := hl.wf
  have hwr := hw.p5 h1
  have hheld := (hw.rd (by simp [h1]) c (hw.eo c (by simp [h4]))).2 l h4
  have hexcl := h.wrExcl hwr (by simp [h1])
  have hholds : s.holds i c l := ⟨h4, hheld⟩
  have hng : (s.req i).gone c = false := by
    cases q : (s.req i).gone c with
    | false => rfl
    | true => have := (hw.gn c q).1; rw [h5] at this; cases this
  have hmap : s.map l = some c := (hl.link c l h4).1 hng
  have hWi : ∀ t, (s.req i).has c t = true → W (s.req i) c t := fun t a => ⟨hwr, by simp [h1], a⟩
  have hcache : ∀ t, (s.req i).has c t = true → ((s.req i).eng = .wt ∨ (s.req i).eng = .wb) →
      s.cache l t = (s.req i).data c t := fun t a b =>
    hl.wca c l t (hWi t a) b h1 (h2 c t) h4
  have hfr : ∀ t, (s.req i).has c t = true → m.fresh c t ((s.req i).data c t) := fun t a =>
    hl.n1 c t (hWi t a)
  have hfo : ∀ t v, (s.req i).has c t = true → m.fresh c t v → m.ok c t v := fun t v a b =>
    hl.n2 c t v (hWi t a) b
  have hcore : ∀ t, (s.req i).has c t = true → (s.req i).eng ≠ .wb →
      m.fresh c t (s.core c t) := by
    intro t a b
    by_cases e : (s.req i).eng = .wt
    · exact hl.wt c t (hWi t a) e h1 (h3 c t)
    · apply hl.wcr c t (hWi t a)
      have : (s.req i).eng = .wi ∨ (s.req i).eng = .wi2 := by
        cases q : (s.req i).eng <;> simp_all [Eng.isWr]
      rcases this with q | q
      · exact Or.inr ⟨q, h1, h3 c t⟩
      · exact Or.inl q
  generalize hs' : ({ s with
          valid := fun k t => if k = l ∧ (s.req i).has c t = true then
            ((s.req i).eng == .wt || (s.req i).eng == .wb) else s.valid k t
          dirty := fun k t => if k = l ∧ (s.req i).has c t = true then
            ((s.req i).eng == .wb) else s.dirty k t
          req := upd s.req i
            { s.req i with
              updd := upd (s.req i).updd c true
              need := upd (s.req i).need c n } } : St D) = s'
  have hreq : s'.req = upd s.req i
            { s.req i with
              updd := upd (s.req i).updd c true
              need := upd (s.req i).need c n } := by
    rw [← hs']
  have hT : ∀ k d u, tcov s k d u → tcov s' k d u := fun k d u => tcov_upd hreq id
  have henv : env s' m = { env s m with
      valid := fun k t => if k = l ∧ (s.req i).has c t = true then
            ((s.req i).eng == .wt || (s.req i).eng == .wb) else s.valid k t
      dirty := fun k t => if k = l ∧ (s.req i).has c t = true then
            ((s.req i).eng == .wb) else s.dirty k t
      T := tcov s' } := by rw [← hs']; rfl
  have hinj := h.glo.inj
  have hhs := hl.hs c
  apply h.mk_step i _ s' m hreq
  case hglo =>
    rw [henv]
    have hg := h.glo
    clear henv hreq hs'
    generalize s.req i = r at *
    refine { hg with dv := ?_, vm := ?_, a1 := ?_, ad := ?_, a2 := ?_ }
    · have := hg.dv; simp only [env] at *; clear h hl hg; grind
    · have := hg.vm; simp only [env] at *; clear h hl hg; grind
    · intro k d t a b
      by_cases q : k = l ∧ r.has c t = true
      · obtain ⟨rfl, q⟩ := q
        have : d = c := by simp only [env] at a; rw [hmap] at a; cases a; rfl
        subst this
        simp only [q, and_self, if_true, env] at b ⊢
        left
        rw [hcache t q (by simpa using b)]
        exact hfo t _ q (hfr t q)
      · simp only [if_neg q] at b
        exact (hg.a1 k d t a b).imp id (hT k d t)
    · have := hg.ad; simp only [env] at *; clear h hl hg; grind
    · intro d t a
      by_cases e : d = c ∧ r.has c t = true
      · obtain ⟨rfl, e⟩ := e
        by_cases q : r.eng = .wb
        · have := a l hmap
          simp [e, q] at this
        · exact hfo t _ e (hcore t e q)
      · apply hg.a2
        intro k hk
        have := a k hk
        simp only [env] at *
        clear h hl hg; grind
  case hlj =>
    intro j hj
    rw [henv]
    have hlj := h.loc j
    have hno : ∀ d, (s.req j).ent d = .line l → (s.req j).held d = true → False :=
      fun d a b => h.alone hj hholds hexcl ⟨a, b⟩
    apply hlj.bits_ch (fun l c t _ => hT l c t)
    · intro d k t x y z
      by_cases e : k = l
      · subst e; exact absurd (hno d x y) id
      · simp only [e, false_and, if_false]; exact z
    · intro d k t x y z
      by_cases e : k = l
      · subst e; exact absurd (hno d x y) id
      · simp only [e, false_and, if_false] at z; exact z
    · intro d k t x y _ z
      by_cases e : k = l
      · subst e; exact absurd (hno d x y) id
      · simp only [e, false_and, if_false]; exact z
    · intro d t k _ _ a b
      by_cases e : k = l ∧ (s.req i).has c t = true
      · obtain ⟨rfl, e⟩ := e
        have : d = c := by simp only [env] at a; rw [hmap] at a; cases a; rfl
        subst this
        simp only [e, and_self, if_true] at b
        have hq : (s.req i).eng = .wt ∨ (s.req i).eng = .wb := by simpa using b
        right; left; simp only [env]; rw [hcache t e hq]; exact hfr t e
      · rw [if_neg e] at b; exact Or.inl b
    · intro d t k _ a b
      by_cases e : k = l ∧ (s.req i).has c t = true
      · obtain ⟨rfl, e⟩ := e
        have : d = c := by simp only [env] at a; rw [hmap] at a; cases a; rfl
        subst this
        simp only [e, and_self, if_true] at b
        have hq : (s.req i).eng = .wb := by simpa using b
        right; simp only [env]; rw [hcache t e (Or.inr hq)]; exact hfr t e
      · rw [if_neg e] at b; exact Or.inl b
  case hli =>
    rw [henv]
    have hun := hl.uniq
    have hwk := hw.wk
    simp only [env] at *
    clear henv hreq hs' hWi hcore
    generalize s.req i = r at *
    clear h
    loc_auto hl
    case wf => wf_auto hw
  case hmw => exact h.mw_upd i _ fun c t => ⟨Iff.rfl, fun _ => rfl⟩
  case hmr => exact h.mr_upd i _ fun c t => Iff.rfl
  case hk => intro c' l a b; exact Or.inl ⟨rfl, a, b⟩
  case hsj =>
    intro j d t hj a b k v q
    by_cases e : d = c
    · subst e
      have := fb_holds (h.loc j) q
      have hk := hinj k l d this.2.2 hmap
      subst hk
      exact absurd (h.alone hj hholds hexcl ⟨this.1, this.2.1⟩) id
    · refine h.sr i j d t k v a ?_ q
      simpa [settled, wiLike, upd_apply, e] using b
  case hsi => intro l c' t' v a j _ b d; exact h.sr j i c' t' l v b d a
  case hs3 => intro l c' t' v a; have := a.1; simp only at this; simp [this, Eng.isWr]
  case hs4 => intro j k c' t' l v _ _ a b d; exact h.sr j k c' t' l v a b d

end Verif.Engine
