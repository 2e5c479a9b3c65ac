import Verif.Lemma.EngineErr

namespace Verif.Engine
open Verif.EngineSpec
variable {D : Type} {S : Nat} {s s' : St D} {m m' : Mon D}

/-- Everything may be read from the sectors of a discard in flight. -/
def Free (s : St D) (m : Mon D) : Prop :=
  ∀ i c t, W (s.req i) c t → (s.req i).disc = true → ∀ v, m.fresh c t v

theorem disc_step {a : Act} {e : Ev D} (hs : Step S s a e s') (he : ∀ i h, e ≠ .invD i h)
    (j c t : Nat) (h1 : W (s'.req j) c t) (h2 : (s'.req j).disc = true) :
    W (s.req j) c t ∧ (s.req j).disc = true := by
  cases hs
  case invD => exact absurd rfl (he _ _)
  case dcore => exact ⟨h1, h2⟩
  case crash => exact absurd rfl h1.2.1
  case invR i r e x h3 h4 h5 h6 h7 =>
    have : e.isWr = false := by cases e <;> simp_all [Eng.isWr, Eng.isRd]
    rw [req_setReq] at h1 h2
    split at h1
    · have := h1.1; simp_all [Req.fresh]
    · next q => rw [if_neg q] at h2; exact ⟨h1, h2⟩
  case persist => exact ⟨h1, h2⟩
  case unmapFree => exact ⟨h1, h2⟩
  all_goals
    simp only [W, St.setReq, upd_apply, Req.done, Req.fresh] at h1 h2 ⊢
    split at h1 <;> grind

theorem fresh_step {e : Ev D} (h : Inv S s m) (hm : m.Next (obs e) m') {j c t : Nat}
    {v : D} (h1 : W (s.req j) c t) (h2 : m.fresh c t v) : m'.fresh c t v := by
  have hb : m.busy c t := ⟨j, (h.mw j c t).2 h1⟩
  cases e <;> cases hm
  case invW =>
    simp only
    split
    · exact Or.inr ⟨hb, h2⟩
    · exact h2
  case invD => exact Or.inl h2
  all_goals exact h2

theorem free_step {a : Act} {e : Ev D} (h : Inv S s m) (hF : Free s m) (hs : Step S s a e s')
    (hm : m.Next (obs e) m') : Free s' m' := by
  intro j c t h1 h2 v
  by_cases he : ∃ i h, e = .invD i h
  · obtain ⟨i, p, rfl⟩ := he
    cases hm
    cases hs
    case invD r h3 h4 h5 h6 =>
      by_cases q : j = i
      · subst q
        refine Or.inr ?_
        have := h1.2.2
        simpa [St.setReq, upd_apply, Req.fresh] using this
      · rw [req_setReq, if_neg q] at h1 h2
        exact Or.inl (hF j c t h1 h2 v)
  · have := disc_step hs (fun i p z => he ⟨i, p, z⟩) j c t h1 h2
    exact fresh_step h hm this.1 (hF j c t this.1 this.2 v)

theorem inv_invD (h : Inv S s m) (i : Nat) (r : Req D)
    (h1 : (s.req i).pc = .free)
    (h4 : ∀ c t, r.has c t = true → r.on c = true) (h5 : ∀ c t, r.has c t = true → t < S)
    (hm : m.Next (.callD i r.has) m') :
    Inv S (s.setReq i (Req.fresh r .wi2 .look true)) m' := by
  cases hm
  have hl := h.loc i
  have hreq : (s.setReq i (Req.fresh r .wi2 .look true)).req =
    upd s.req i (Req.fresh r .wi2 .look true) := rfl
  have hT : ∀ l c t, tcov s l c t → tcov (s.setReq i (Req.fresh r .wi2 .look true)) l c t :=
    fun l c t => tcov_upd hreq (by rintro ⟨a, _⟩; exact absurd h1 a.2.1)
  apply h.mk_step i _ _ _ hreq
  case hglo =>
    have hg := h.glo.mono hT
    exact { hg with
      a1 := fun l c t a b => (hg.a1 l c t a b).imp Or.inl id
      ad := fun l c t a b => Or.inl (hg.ad l c t a b)
      a2 := fun c t a => Or.inl (hg.a2 c t a) }
  case hlj =>
    intro j hj
    have hlj := h.loc j
    refine hlj.mon_ch hT ?_ ?_ ?_ ?_ ?_ ?_
    · intro c t v a b; exact Or.inl b
    · intro c t v a b; exact b.imp (hlj.n2 c t v a) id
    · intro l c t v a; exact Or.inl (hlj.ar l c t v a)
    · intro c l t _ _ _ _ _ a; exact Or.inl a
    · intro c t v a b d f; exact f.imp (hlj.ex c t v a b d) id
    · intro c t v a; exact Or.inl a
  case hli =>
    simp only [env, Req.fresh]
    clear h hT hl hreq
    constructor
    case wf => constructor <;> (simp only [wiLike] at *; grind)
    all_goals (simp only [W, fb, coreDone, settled, wiLike] at *; grind)
  case hmw =>
    intro j c t
    by_cases hj : j = i
    · subst hj; simp [upd_apply, Req.fresh, W, Eng.isWr]
    · simp only [hj, if_false, upd_apply]; exact h.mw j c t
  case hmr =>
    refine h.mr_upd i _ fun c t => ?_
    simp [Req.fresh, h1, Eng.isRd]
  case hk => intro c' l a b; simp [Req.fresh] at b
  case hsj =>
    intro j c' t' _ a b
    rcases b with ⟨_, b | b⟩
    · simp [Req.fresh] at b
    · simp [Req.fresh] at b
  case hsi => intro l c' t' v a; simp [fb, Req.fresh] at a
  case hs3 => intro l c' t' v a; simp [fb, Req.fresh] at a
  case hs4 =>
    intro j k c' t' l v _ _ a b d
    exact Or.inl (h.sr j k c' t' l v a b d)

/-- For a discard, completing and failing look the same. -/
theorem ackD_err (h : Inv S s m) (hF : Free s m) {i : Nat} (h1 : (s.req i).disc = true)
    (hm : m.Next (.ackW i) m') : m.Next (.errW i) m' := by
  cases hm
  have : (fun c t v => if m.wr i c t = false then m.ok c t v else m.fresh c t v) = m.ok := by
    funext c t v
    split
    · rfl
    · next q =>
      have hW : W (s.req i) c t := (h.mw i c t).1 (by simpa using q)
      have hf := hF i c t hW h1 v
      exact propext ⟨fun _ => (h.loc i).n2 c t v hW hf, fun _ => hf⟩
  rw [this]
  exact .errW i

theorem inv_ackD (h : Inv S s m) (hF : Free s m) (i : Nat) (h1 : (s.req i).disc = true)
    (h2 : (s.req i).eng = .wi2) (h3 : (s.req i).pc = .look) (hm : m.Next (.ackW i) m') :
    Inv S (s.setReq i (s.req i).done) m' := by
  refine inv_errW h i (by simp [h2, Eng.isWr]) ?_ (ackD_err h hF h1 hm)
  intro l c t z
  have := z.2.2.2.2.1; rw [h3] at this; cases this

theorem inv_dnext (h : Inv S s m) (hF : Free s m) (i : Nat) (h1 : (s.req i).disc = true)
    (h2 : (s.req i).eng = .wi2)
    (h3 : (s.req i).pc = .look ∨ (s.req i).pc = .xfer ∧
        (∀ c l, (s.req i).on c = true → (s.req i).ent c = .line l →
          (s.req i).updd c = true)) :
    Inv S (s.setReq i { (s.req i).fresh .wi2 .look true with dany := true }) m := by
  have hl := h.loc i
  have hf := fun c t a => hF i c t a h1
  obtain ⟨r, h0⟩ : ∃ r, s.req i = r := ⟨_, rfl⟩
  rw [h0] at hl h1 h2 h3 hf ⊢
  have hw := hl.wf
  have hp : r.pc ≠ .free := by rcases h3 with q | q <;> simp [q]
  have hf' : ∀ c t, r.has c t = true → ∀ v, m.fresh c t v :=
    fun c t a => hf c t ⟨by simp [h2, Eng.isWr], hp, a⟩
  have hn : ∀ c t v, r.has c t = true → m.ok c t v :=
    fun c t v a => hl.n2 c t v ⟨by simp [h2, Eng.isWr], hp, a⟩ (hf' c t a v)
  have ho := hw.ho
  have hs := hl.hs
  apply h.loc_step i h0
  case hl =>
    clear h h0 hf hw hl h3
    simp only [env, Req.fresh]
    constructor
    case wf => constructor <;> (simp only [wiLike] at *; grind)
    all_goals (simp only [W, fb, coreDone, settled, wiLike] at *; grind)
  case hk => intro c' l' a b; simp [Req.fresh] at b
  case htc => intro l c t z; have := z.2.2.2.1; rw [h2] at this; cases this
  case hs1 =>
    rintro c t _ ⟨_, b | b⟩
    · simp [Req.fresh] at b
    · simp [Req.fresh] at b
  case hs2 => intro l c t v a; simp [fb, Req.fresh] at a
  case hs3 => intro l c t v a; simp [fb, Req.fresh] at a
  case hw =>
    intro c t
    simp [W, Req.fresh, h2, hp]
  case hr => intro c t; simp [Req.fresh, h2, Eng.isRd]

theorem inv_dcore (h : Inv S s m) (hF : Free s m) (i c t : Nat) (v : D)
    (h1 : (s.req i).disc = true) (h2 : (s.req i).eng = .wi2) (h3 : (s.req i).pc = .look)
    (h4 : (s.req i).has c t = true) :
    Inv S { s with core := upd2 s.core c t v } m := by
  have hW : W (s.req i) c t := ⟨by simp [h2, Eng.isWr], by simp [h3], h4⟩
  have hf := hF i c t hW h1 v
  have hok : (env s m).ok c t v := (h.loc i).n2 c t v hW hf
  have hg := h.glo
  refine ⟨{ hg with a2 := ?_ }, ?_, h.lock, h.sr, h.mw, h.mr⟩
  · have := hg.a2
    intro d u a
    have := this d u a
    simp only [env, upd2_apply] at *
    split
    · next q => rw [q.1, q.2]; exact hok
    · exact this
  · intro j
    exact (h.loc j).core_ch (T := tcov s) (fun _ _ _ z => z) hok (fun _ _ => hf)
      (fun _ _ _ _ => hf)

end Verif.Engine
