import Verif.Lemma.Engine

namespace Verif.Engine
open Verif.EngineSpec
variable {D : Type} {S : Nat} {s : St D} {m : Mon D}

/-- Whoever holds a line without writing excludes writers. -/
theorem Inv.noWr (h : Inv S s m) {i j c d l : Nat} (a : s.holds i c l)
    (b : (s.req i).eng.isWr = false) (e : s.holds j d l) (f : (s.req j).excl = true) : j = i := by
  by_cases hij : j = i
  · exact hij
  · have := (h.lock j i d c l hij e a).1
    simp [f] at this

theorem Inv.wrExcl (h : Inv S s m) {j : Nat} (b : (s.req j).eng.isWr = true)
    (p : (s.req j).pc ≠ .free) : (s.req j).excl = true :=
  ((h.loc j).wf.lk p).1 b

/-- Whoever holds a line and is not in its transfer phase excludes writers. -/
theorem Inv.noT (h : Inv S s m) {i c l : Nat} (a : s.holds i c l)
    (b : (s.req i).eng.isWr = false ∨ (s.req i).pc ≠ .xfer) (d t : Nat) : ¬ tcov s l d t := by
  rintro ⟨j, hj⟩
  have e := h.wrExcl hj.1.1 hj.1.2.1
  by_cases hij : j = i
  · subst hij
    rcases b with b | b
    · simp [hj.1.1] at b
    · exact b hj.2.2.2.2.1
  · have := (h.lock j i d c l hij ⟨hj.2.1, hj.2.2.1⟩ a).1
    simp [e] at this

theorem Inv.okCache (h : Inv S s m) {i c l t : Nat} (a : s.holds i c l)
    (b : (s.req i).eng.isWr = false ∨ (s.req i).pc ≠ .xfer) (g : s.map l = some c)
    (v : s.valid l t = true) : m.ok c t (s.cache l t) :=
  (h.glo.a1 l c t g v).resolve_right (h.noT a b c t)

theorem Inv.okCore (h : Inv S s m) {c l t : Nat} (a : s.map l = some c)
    (b : s.dirty l t = false) : m.ok c t (s.core c t) := by
  apply h.glo.a2
  intro k hk
  have : k = l := h.glo.inj k l c hk a
  subst this
  exact b

theorem settled_done {e : Env D} {x} {r : Req D} (h : Loc S e x r) {c : Nat} (t : Nat)
    (b : settled r c) : coreDone r c t := by
  rcases b with ⟨b | b, d | d⟩
  · exact Or.inr ⟨b, (h.wf.ud c d).1, (h.wux c d c t).2⟩
  · exact Or.inl d.1
  · exact Or.inl b
  · exact Or.inl b

theorem inv_look (h : Inv S s m) (i c l : Nat) (h1 : (s.req i).pc = .look)
    (h2 : (s.req i).on c = true) (h3 : (s.req i).ent c = .unseen) (h4 : s.map l = some c) :
    Inv S (s.setReq i { s.req i with ent := upd (s.req i).ent c (.line l) }) m := by
  have hl := h.loc i
  have hg := h.glo.inj
  obtain ⟨r, h0⟩ : ∃ r, s.req i = r := ⟨_, rfl⟩
  rw [h0] at hl h1 h2 h3 ⊢
  have hw := hl.wf
  have hk := hw.lkd h1
  have hu := hw.hl c
  apply h.loc_step i h0
  case hl =>
    clear h h0
    loc_auto hl
    case wf => wf_auto hw
    case uniq => have := hl.uniq; have := hl.link; simp only [env] at *; grind
  side_auto

theorem inv_miss (h : Inv S s m) (i c : Nat) (h1 : (s.req i).pc = .look)
    (h2 : (s.req i).on c = true) (h3 : (s.req i).ent c = .unseen) (h4 : ∀ l, s.map l ≠ some c)
    (h5 : (s.req i).eng = .pt ∨ (s.req i).eng = .wo ∨ (s.req i).eng = .wi ∨
        (s.req i).eng = .wi2) :
    Inv S (s.setReq i { s.req i with ent := upd (s.req i).ent c .none }) m := by
  have hl := h.loc i
  have ha2 : ∀ t, m.ok c t (s.core c t) := fun t => h.glo.a2 c t (fun l hl => absurd hl (h4 l))
  have hfb : ∀ j l t v, ¬ fb (s.req j) l c t v := fun j l t v a =>
    h4 l ((h.loc j).mapped a.2.2.2.1 (Or.inl (by simp [wiLike, a.1])))
  obtain ⟨r, h0⟩ : ∃ r, s.req i = r := ⟨_, rfl⟩
  rw [h0] at hl h1 h2 h3 h5 ⊢
  have hw := hl.wf
  have hk := hw.lkd h1
  have hu := hw.hl c
  have hx := hl.ex
  apply h.loc_step i h0
  case hl =>
    clear h h0
    loc_auto hl
    case wf => wf_auto hw
  side_auto

theorem inv_grab (h : Inv S s m) (i c l : Nat) (h1 : (s.req i).pc = .look)
    (h2 : (s.req i).ent c = .line l) (h3 : (s.req i).held c = false)
    (h4 : ∀ j d, j ≠ i → s.holds j d l → (s.req i).excl = false ∧ (s.req j).excl = false) :
    Inv S (s.setReq i { s.req i with held := upd (s.req i).held c true }) m := by
  have hl := h.loc i
  obtain ⟨r, h0⟩ : ∃ r, s.req i = r := ⟨_, rfl⟩
  rw [h0] at hl h1 h2 h3 ⊢
  simp only [h0] at h4
  have hw := hl.wf
  have hk := hw.lkd h1
  have hu := hw.hl c
  apply h.loc_step i h0
  case hl =>
    clear h h0
    loc_auto hl
    case wf => wf_auto hw
  side_auto

theorem inv_goHit (h : Inv S s m) (i : Nat) (h1 : (s.req i).pc = .look) (h2 : (s.req i).ready)
    (h3 : s.hit (s.req i)) (h4 : (s.req i).eng = .gen ∨ (s.req i).eng = .wo) :
    Inv S (s.setReq i { s.req i with pc := .cread }) m := by
  have hl := h.loc i
  obtain ⟨r, h0⟩ : ∃ r, s.req i = r := ⟨_, rfl⟩
  rw [h0] at hl h1 h2 h3 h4 ⊢
  have hw := hl.wf
  have hk := hw.lkd h1
  simp only [Req.ready, St.hit] at h2 h3
  apply h.loc_step i h0
  case hl =>
    clear h h0
    loc_auto hl
    case wf => wf_auto hw
  side_auto

theorem inv_goClean (h : Inv S s m) (i : Nat) (h1 : (s.req i).pc = .look) (h2 : (s.req i).ready)
    (h4 : (s.req i).eng = .gen ∨ (s.req i).eng = .pt ∨ (s.req i).eng = .wi) :
    Inv S (s.setReq i { s.req i with pc := .clean }) m := by
  have hl := h.loc i
  obtain ⟨r, h0⟩ : ∃ r, s.req i = r := ⟨_, rfl⟩
  rw [h0] at hl h1 h2 h4 ⊢
  have hw := hl.wf
  have hk := hw.lkd h1
  simp only [Req.ready] at h2
  apply h.loc_step i h0
  case hl =>
    clear h h0
    loc_auto hl
    case wf => wf_auto hw
  side_auto

theorem inv_goCore (h : Inv S s m) (i : Nat) (h1 : (s.req i).pc = .look) (h2 : (s.req i).ready)
    (h4 : (s.req i).eng = .gen ∨ (s.req i).eng = .pt) (h3 : s.noDirty (s.req i)) :
    Inv S (s.setReq i { s.req i with pc := .oread }) m := by
  have hl := h.loc i
  obtain ⟨r, h0⟩ : ∃ r, s.req i = r := ⟨_, rfl⟩
  rw [h0] at hl h1 h2 h3 h4 ⊢
  have hw := hl.wf
  have hk := hw.lkd h1
  have ho := hw.eo
  simp only [Req.ready, St.noDirty] at h2 h3
  apply h.loc_step i h0
  case hl =>
    clear h h0
    loc_auto hl
    case wf => wf_auto hw
  side_auto

theorem inv_goCoreWo (h : Inv S s m) (i : Nat) (b : Bool) (h1 : (s.req i).pc = .look) (h2 : (s.req i).ready)
    (h4 : (s.req i).eng = .wo) (h3 : b = false → s.noDirty (s.req i)) :
    Inv S (s.setReq i { s.req i with pc := .oread, dany := b }) m := by
  have hl := h.loc i
  obtain ⟨r, h0⟩ : ∃ r, s.req i = r := ⟨_, rfl⟩
  rw [h0] at hl h1 h2 h3 h4 ⊢
  have hw := hl.wf
  have hk := hw.lkd h1
  have ho := hw.eo
  simp only [Req.ready, St.noDirty] at h2 h3
  apply h.loc_step i h0
  case hl =>
    clear h h0
    loc_auto hl
    case wf => wf_auto hw
  side_auto

theorem inv_rdCache (h : Inv S s m) (i c t l : Nat) (h1 : (s.req i).pc = .cread)
    (h2 : (s.req i).has c t = true) (h3 : (s.req i).ent c = .line l) :
    Inv S (s.setReq i { s.req i with res := upd2 (s.req i).res c t (some (s.cache l t)) }) m := by
  have hl := h.loc i
  have hok : m.exp i c t (s.cache l t) := by
    have hr : (s.req i).eng = .gen ∨ (s.req i).eng = .wo := hl.wf.p1 h1
    have hh := (hl.wf.rd (by simp [h1]) c (hl.wf.eo c (by simp [h3]))).2 l h3
    have hg := hl.mapped h3 (Or.inr (by simp [h1]))
    exact hl.ex c t _ (by simp only [Eng.isRd]; grind) (by simp [h1]) (by simp [h1])
      (h.okCache (i := i) ⟨h3, hh⟩ (Or.inr (by simp [h1])) hg (hl.hit c t l h1 h2 h3))
  obtain ⟨r, h0⟩ : ∃ r, s.req i = r := ⟨_, rfl⟩
  rw [h0] at hl h1 h2 h3 ⊢
  have hw := hl.wf
  apply h.loc_step i h0
  case hl =>
    clear h h0
    loc_auto hl
    case wf => wf_auto hw
  side_auto

theorem inv_rdCore (h : Inv S s m) (i c t : Nat) (h1 : (s.req i).pc = .oread)
    (h2 : (s.req i).has c t = true) :
    Inv S (s.setReq i { s.req i with res := upd2 (s.req i).res c t (some (s.core c t)) }) m := by
  have hl := h.loc i
  have hrd := hl.wf.p2 h1
  have hgone : ∀ c, (s.req i).gone c = false := by
    intro c
    cases hq : (s.req i).gone c with
    | false => rfl
    | true => have := (hl.wf.gn c hq).2.1; simp only [wiLike, Eng.isRd] at *; grind
  have hmap : ∀ l, (s.req i).ent c = .line l → s.map l = some c :=
    fun l a => (hl.link c l a).1 (hgone c)
  have hokc : ∀ l, (s.req i).ent c = .line l → s.dirty l t = false → m.ok c t (s.core c t) :=
    fun l a b => h.okCore (hmap l a) b
  have hgen : (s.req i).eng = .gen → m.ok c t (s.core c t) := by
    intro hgen
    have he := (hl.wf.rd (by simp [h1]) c (hl.wf.ho c t h2)).1
    have hn := hl.wf.mp (Or.inl hgen) c
    cases hq : (s.req i).ent c with
    | unseen => exact absurd hq he
    | none => exact absurd hq hn
    | line l => exact hokc l hq (hl.nd c l t hq (Or.inl ⟨h1, Or.inl (by simp [hgen])⟩))
  have hex : m.exp i c t (s.core c t) ∨ ((s.req i).eng = .wo ∧ (s.req i).dany = true ∧
      ∃ l, (s.req i).ent c = .line l ∧ s.valid l t = true) := by
    have he := (hl.wf.rd (by simp [h1]) c (hl.wf.ho c t h2)).1
    cases hq : (s.req i).ent c with
    | unseen => exact absurd hq he
    | none => exact Or.inl (hl.pc0 c t hrd hq)
    | line l =>
      have hx : s.dirty l t = false → m.exp i c t (s.core c t) := fun b =>
        hl.ex c t _ hrd (by simp [h1]) (by simp [h1]) (hokc l hq b)
      by_cases hwo : (s.req i).eng ≠ .wo ∨ (s.req i).dany = false
      · exact Or.inl (hx (hl.nd c l t hq (Or.inl ⟨h1, hwo⟩)))
      · by_cases hv : s.valid l t = true
        · right; refine ⟨by grind, by grind, l, rfl, hv⟩
        · left; apply hx
          have := h.glo.dv l t
          simp only [env] at this
          grind
  have hsf : ∀ j, W (s.req j) c t → settled (s.req j) c → m.fresh c t (s.core c t) :=
    fun j a b => (h.loc j).wcr c t a (settled_done (h.loc j) t b)
  obtain ⟨r, h0⟩ : ∃ r, s.req i = r := ⟨_, rfl⟩
  rw [h0] at hl h1 h2 hrd hgen hex ⊢
  clear hgone hmap hokc
  have hw := hl.wf
  apply h.loc_step i h0
  case hl =>
    clear h h0
    loc_auto hl
    case wf => wf_auto hw
  side_auto

theorem inv_goOver (h : Inv S s m) (i : Nat) (w : Nat → Nat → Bool) (h1 : (s.req i).pc = .oread) (h2 : (s.req i).eng = .wo)
    (h3 : ∀ c t, (s.req i).has c t = true → (s.req i).res c t ≠ none) (h4 : (s.req i).dany = true)
    (h5 : ∀ c t, w c t = true ↔
        (s.req i).has c t = true ∧ ∃ l, (s.req i).ent c = .line l ∧ s.valid l t = true) :
    Inv S (s.setReq i { s.req i with pc := .over, toCache := w }) m := by
  have hl := h.loc i
  obtain ⟨r, h0⟩ : ∃ r, s.req i = r := ⟨_, rfl⟩
  rw [h0] at hl h1 h2 h4 ⊢
  simp only [h0] at h3 h5
  have hw := hl.wf
  apply h.loc_step i h0
  case hl =>
    clear h h0
    loc_auto hl
    case wf => wf_auto hw
    case wux => have := hw.ud; grind
    case r3 =>
      intro c t v _ a b
      rcases hl.r2 c t v h1 b with q | ⟨_, _, q1, q2⟩
      · exact q
      · have := (h5 c t).2 ⟨q1, q2⟩
        simp only at a
        rw [a] at this; cases this
  side_auto

theorem inv_rdOver (h : Inv S s m) (i c t l : Nat) (h1 : (s.req i).pc = .over)
    (h2 : (s.req i).toCache c t = true) (h3 : (s.req i).ent c = .line l) :
    Inv S (s.setReq i { s.req i with
          res := upd2 (s.req i).res c t (some (s.cache l t))
          toCache := upd2 (s.req i).toCache c t false }) m := by
  have hl := h.loc i
  have hok : m.exp i c t (s.cache l t) := by
    have hr : (s.req i).eng = .wo := hl.wf.p3 h1
    have hh := (hl.wf.rd (by simp [h1]) c (hl.wf.eo c (by simp [h3]))).2 l h3
    have hg := hl.mapped h3 (Or.inr (by simp [h1]))
    exact hl.ex c t _ (by simp only [Eng.isRd]; grind) (by simp [h1]) (by simp [h1])
      (h.okCache (i := i) ⟨h3, hh⟩ (Or.inr (by simp [h1])) hg (hl.r5 c t l h1 h2 h3))
  obtain ⟨r, h0⟩ : ∃ r, s.req i = r := ⟨_, rfl⟩
  rw [h0] at hl h1 h2 h3 ⊢
  have hw := hl.wf
  apply h.loc_step i h0
  case hl =>
    clear h h0
    loc_auto hl
    case wf => wf_auto hw
  side_auto

theorem inv_cgrab (h : Inv S s m) (i c l : Nat) (h1 : (s.req i).pc = .clean) (h2 : (s.req i).eng = .cln)
    (h3 : (s.req i).ent c = .unseen) (h4 : s.map l = some c)
    (h5 : ∀ j d, s.holds j d l → (s.req j).excl = false) :
    Inv S (s.setReq i { s.req i with
          on := upd (s.req i).on c true
          ent := upd (s.req i).ent c (.line l)
          held := upd (s.req i).held c true }) m := by
  have hl := h.loc i
  obtain ⟨r, h0⟩ : ∃ r, s.req i = r := ⟨_, rfl⟩
  rw [h0] at hl h1 h2 h3 ⊢
  have hw := hl.wf
  apply h.loc_step i h0
  case hl =>
    clear h h0
    loc_auto hl
    case wf =>
      wf_auto hw
      case hl =>
        intro d
        have := hw.hl d
        by_cases e : d = c
        · subst e; intro _; exact ⟨l, by simp [upd_apply]⟩
        · simpa [upd_apply, e] using this
    case c1 => have := hl.c1; have := hw.wk; have := hw.fi; grind
    case nd => have := hl.nd; have := hw.mkd; grind
    case link => have := hl.link; have := hw.gn; simp only [env, wiLike] at *; grind
    case uniq =>
      have := hl.uniq; have := hl.link; have := hw.gn
      simp only [env, wiLike] at *
      grind
    case c2 => have := hl.c2; have := hw.fi; grind
  side_auto
  case hk =>
    intro c' l' a b
    by_cases e : c' = c
    · subst e
      right
      simp only [upd_apply, if_pos] at a
      cases a
      intro j d hj hd
      exact ⟨(hw.lk (by simp [h1])).2 (by simp [h2]), h5 j d hd⟩
    · left
      refine ⟨rfl, ?_⟩
      simp only [upd_apply, if_neg e] at a b
      exact ⟨by rw [h0]; exact a, by rw [h0]; exact b⟩

theorem inv_cfire (h : Inv S s m) (i c l : Nat) (w : Nat → Bool) (h1 : (s.req i).pc = .clean)
    (h2 : (s.req i).ent c = .line l) (h3 : (s.req i).held c = true) (h4 : (s.req i).fired c = false)
    (h5 : ∀ t, w t = true ↔ t < S ∧ (s.dirty l t = true ∨
      (∀ u, u < S → s.valid l u = true) ∧ ∃ u, s.dirty l u = true)) :
    Inv S (s.setReq i { s.req i with
          fired := upd (s.req i).fired c true
          buf := upd (s.req i).buf c (s.cache l)
          wback := upd (s.req i).wback c w }) m := by
  have hl := h.loc i
  have hvm := h.glo.vm
  have hdv := h.glo.dv
  obtain ⟨r, h0⟩ : ∃ r, s.req i = r := ⟨_, rfl⟩
  rw [h0] at hl h1 h2 h3 h4 ⊢
  have hw := hl.wf
  apply h.loc_step i h0
  case hl =>
    clear h h0
    loc_auto hl
    case wf =>
      wf_auto hw
  side_auto

theorem inv_cskip (h : Inv S s m) (i c l : Nat) (h1 : (s.req i).pc = .clean) (h2 : (s.req i).ent c = .line l)
    (h4 : (s.req i).fired c = false) (h5 : ∀ t, s.dirty l t = false) :
    Inv S (s.setReq i { s.req i with marked := upd (s.req i).marked c true, fired := upd (s.req i).fired c true }) m := by
  have hl := h.loc i
  obtain ⟨r, h0⟩ : ∃ r, s.req i = r := ⟨_, rfl⟩
  rw [h0] at hl h1 h2 h4 ⊢
  have hw := hl.wf
  have hwk := hw.wk
  apply h.loc_step i h0
  case hl =>
    clear h h0
    loc_auto hl
    case wf => wf_auto hw
  side_auto

theorem inv_cend (h : Inv S s m) (i : Nat) (h1 : (s.req i).pc = .clean) (h2 : (s.req i).eng ≠ .cln)
    (h3 : ∀ c l, (s.req i).on c = true → (s.req i).ent c = .line l →
        (s.req i).marked c = true) :
    Inv S (s.setReq i { s.req i with
          need := fun _ => false
          pc := if (s.req i).eng = .wi then .xfer else .oread
          toCore := if (s.req i).eng = .wi then (s.req i).has else (s.req i).toCore }) m := by
  have hl := h.loc i
  obtain ⟨r, h0⟩ : ∃ r, s.req i = r := ⟨_, rfl⟩
  rw [h0] at hl h1 h2 ⊢
  simp only [h0] at h3
  have hw := hl.wf
  have hcr := hw.cr h1
  have hwk := hw.wk
  have hfi := hw.fi
  have htz := hw.tz (Or.inr h1)
  have hmw := hw.mwb
  have hud := hw.ud
  have hnd := hw.nd
  have hgn := hw.gn
  have heo := hw.eo
  have hrd := hw.rd (by simp [h1])
  have hp := hw.p6 h1
  have hmk := hl.nd
  by_cases hwi : r.eng = .wi
  · simp only [hwi, if_true]
    apply h.loc_step i h0
    case hl =>
      clear h h0
      loc_auto hl
      case wf => wf_auto hw
    side_auto
  · simp only [hwi, if_false]
    apply h.loc_step i h0
    case hl =>
      clear h h0
      loc_auto hl
      case wf => wf_auto hw
    side_auto

theorem inv_restart (h : Inv S s m) (i : Nat) (e : Eng) (x : Bool) (h1 : (s.req i).pc = .look)
    (h2 : (s.req i).eng = .gen ∧ e = .pt ∨ (s.req i).eng = .pt ∧ e = .gen ∨
        ((s.req i).eng = .wt ∨ (s.req i).eng = .wb) ∧ e = .wi) (h3 : e.lockOk x) :
    Inv S (s.setReq i ((s.req i).fresh e .look x)) m := by
  have hl := h.loc i
  obtain ⟨r, h0⟩ : ∃ r, s.req i = r := ⟨_, rfl⟩
  rw [h0] at hl h1 h2 ⊢
  have hw := hl.wf
  simp only [Req.fresh]
  apply h.loc_step i h0
  case hl =>
    clear h h0
    loc_auto hl
    case wf => wf_auto hw
  side_auto

theorem inv_pass2 (h : Inv S s m) (i : Nat) (h1 : (s.req i).pc = .xfer) (h2 : (s.req i).eng = .wi)
    (h3 : ∀ d t, (s.req i).toCore d t = false)
    (h4 : ∀ c l, (s.req i).on c = true → (s.req i).ent c = .line l →
        (s.req i).updd c = true ∧ (s.req i).need c = false) :
    Inv S (s.setReq i ((s.req i).fresh .wi2 .look true)) m := by
  have hl := h.loc i
  obtain ⟨r, h0⟩ : ∃ r, s.req i = r := ⟨_, rfl⟩
  simp only [h0] at h3 h4
  rw [h0] at hl h1 h2 ⊢
  have hw := hl.wf
  have hho := hw.ho
  have heo := hw.eo
  have hrd := hw.rd (by simp [h1])
  simp only [Req.fresh]
  apply h.loc_step i h0
  case hl =>
    clear h h0
    loc_auto hl
    case wf => wf_auto hw
  side_auto

theorem inv_invC (h : Inv S s m) (i : Nat) (h1 : (s.req i).pc = .free) :
    Inv S (s.setReq i ((s.req i).done.fresh .cln .clean false)) m := by
  have hl := h.loc i
  obtain ⟨r, h0⟩ : ∃ r, s.req i = r := ⟨_, rfl⟩
  rw [h0] at hl h1 ⊢
  have hw := hl.wf
  simp only [Req.fresh, Req.done]
  apply h.loc_step i h0
  case hl =>
    clear h h0
    loc_auto hl
    case wf => wf_auto hw
  side_auto

theorem inv_cendBg (h : Inv S s m) (i : Nat) (h1 : (s.req i).pc = .clean) (h2 : (s.req i).eng = .cln) :
    Inv S (s.setReq i (s.req i).done) m := by
  have hl := h.loc i
  obtain ⟨r, h0⟩ : ∃ r, s.req i = r := ⟨_, rfl⟩
  rw [h0] at hl h1 h2 ⊢
  have hw := hl.wf
  simp only [Req.fresh, Req.done]
  apply h.loc_step i h0
  case hl =>
    clear h h0
    loc_auto hl
    case wf => wf_auto hw
  side_auto

end Verif.Engine
