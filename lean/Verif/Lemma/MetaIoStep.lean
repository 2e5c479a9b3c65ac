import Verif.Lemma.MetaIo

/-! The steps keep the invariant of the metadata transfers. -/

namespace Verif.MetaIo

theorem b_true : b true = 1 := rfl
theorem b_false : b false = 0 := rfl

theorem Inv.rem_pos {g : Cfg} {st : State} {i : Nat} {ph : Ph} (h : Inv g st) (hi : st.reqs[i]? = some ph)
    (hp : holdsRem ph = true) : 0 < st.remaining := by
  have := countP_pos_of_get holdsRem st.reqs i ph hi hp
  have := h.rem; omega

theorem Inv.act_pos {g : Cfg} {st : State} {i : Nat} {ph : Ph} (h : Inv g st) (hi : st.reqs[i]? = some ph)
    (hp : holdsAct ph = true) : 0 < st.active := by
  have := countP_pos_of_get holdsAct st.reqs i ph hi hp
  have := h.act; omega

theorem Inv.at_pos {g : Cfg} {st : State} {i : Nat} {ph : Ph} (h : Inv g st) (hi : st.reqs[i]? = some ph)
    (hid : ph ≠ .idle) (hs : ph.starting = true) : i = pos (nReqs g) st.pc := by
  have h1 := h.order i ph hi
  rcases Nat.lt_trichotomy i (pos (nReqs g) st.pc) with hl | hl | hl
  · rw [(h1.2 hl).2] at hs; exact absurd hs (by decide)
  · exact hl
  · exact absurd (h1.1 hl) hid

theorem Inv.lt_parts {g : Cfg} {st : State} {i : Nat} {ph : Ph} (h : Inv g st)
    (hi : st.reqs[i]? = some ph) : i < nParts g := by
  have := lt_of_get hi
  have := h.len
  have := nReqs_le g
  omega

/-- Fields of `Move` that do not change. -/
structure Same (st st' : State) : Prop where
  pc : st'.pc = st.pc
  next : st'.next = st.next
  issued : st'.issued = st.issued
  finished : st'.finished = st.finished
  filled : st'.filled = st.filled
  drained : st'.drained = st.drained

/-- A step of a request that takes no part and transfers nothing. -/
theorem Inv.quiet {g : Cfg} {st st' : State} {i : Nat} {ph ph' : Ph} (h : Inv g st)
    (hi : st.reqs[i]? = some ph) (hid : ph ≠ .idle) (s : Same st st')
    (reqs : st'.reqs = st.reqs.set i ph')
    (rem : st'.remaining + b (holdsRem ph) = st.remaining + b (holdsRem ph'))
    (act : st'.active + b (holdsAct ph) = st.active + b (holdsAct ph'))
    (calls : st'.calls.length + b (isCall ph') + (if st.remaining = 0 then 1 else 0) =
      st.calls.length + b (isCall ph) + (if st'.remaining = 0 then 1 else 0))
    (dels : st'.deleted + b (isDel ph') + (if st.active = 0 then 1 else 0) =
      st.deleted + b (isDel ph) + (if st'.active = 0 then 1 else 0))
    (idle : ph' ≠ .idle)
    (starting : ph'.starting = true → ph.starting = true)
    (error : st.error ≠ 0 → st'.error ≠ 0)
    (errsub : ∀ v ∈ st.errs, v ∈ st'.errs)
    (loc : Loc (nParts g) st.next st'.error st'.errs i ph' ∧ TakeOk st.next i ph')
    (pnd : ∀ k, pend k ph' = pend k ph)
    (hio : ∀ k, isIo k ph' = isIo k ph)
    (err : st'.error ≠ 0 → st'.error ∈ st'.errs)
    (errz : (0 : Int) ∉ st'.errs)
    (errs : st'.error ≠ 0 ∨ isErr ph' = true ∨ (st'.errs = st.errs ∧ isErr ph = false))
    (bufs : ∀ j, st'.freed.count j + (if j = i then b (isFreed ph) else 0) =
      st.freed.count j + (if j = i then b (isFreed ph') else 0)) : Inv g st' := by
  refine h.move hi hid ⟨reqs, s.pc, rem, act, calls, dels, idle, starting, by rw [s.next]; exact Nat.le_refl _,
    error, errsub, by rw [s.next]; exact loc, ?_, ?_, err, errz, errs, bufs, ?_, ?_, ?_⟩
  · intro k; rw [s.issued, s.next, pnd]
  · intro k; rw [s.finished, s.issued, hio]
  · rw [s.filled, s.issued]; exact h.filled
  · rw [s.drained, s.finished]; exact h.drained
  · intro p hp; rw [s.finished] at hp; exact (h.fails p hp).imp id (errsub _)

theorem step_begin {g : Cfg} {st : State} {i : Nat} (h : Inv g st) (hi : st.reqs[i]? = some .begin) :
    Inv g { st with active := st.active + 1, reqs := st.reqs.set i (.check true none) } := by
  have hp := h.at_pos hi (by decide) rfl
  have ha := h.adv
  rw [← hp] at ha
  have hact : 0 < st.active := by
    have h1 := lt_of_get hi
    have h2 := h.len
    have h3 := h.act
    cases hpc : st.pc with
    | start j => rw [hpc] at h3; simp only [mainAct] at h3; omega
    | _ => rw [hpc] at hp; simp only [pos] at hp; omega
  refine h.quiet hi (by decide) ⟨rfl, rfl, rfl, rfl, rfl, rfl⟩ rfl rfl rfl rfl ?_ (by decide) (fun _ => rfl) id
    (fun v hv => hv) ⟨⟨fun _ => ⟨rfl, ha⟩, fun hf => absurd hf (by decide)⟩, trivial⟩ (fun k => rfl) (fun k => rfl)
    h.err h.errz (Or.inr (Or.inr ⟨rfl, rfl⟩)) (fun j => rfl)
  rw [if_neg (by omega), if_neg (by simp)]
  rfl

theorem step_check {g : Cfg} {st : State} {i : Nat} {fs : Bool} {o : Option Nat} (h : Inv g st)
    (hi : st.reqs[i]? = some (.check fs o)) :
    Inv g { st with reqs := st.reqs.set i (if st.error ≠ 0 then .drop fs o else .take fs o) } := by
  have hl := (h.loc i _ hi).1
  by_cases he : st.error ≠ 0
  · rw [if_pos he]
    refine h.quiet hi (by simp) ⟨rfl, rfl, rfl, rfl, rfl, rfl⟩ rfl rfl rfl rfl rfl (by simp) id id
      (fun v hv => hv) ⟨⟨Or.inl he, ?_⟩, trivial⟩ (fun k => rfl) (fun k => rfl)
      h.err h.errz (Or.inr (Or.inr ⟨rfl, rfl⟩)) (fun j => rfl)
    intro k hk
    refine ⟨?_, he⟩
    cases fs with
    | false => rfl
    | true => have := (hl.1 rfl).1; rw [this] at hk; cases hk
  · rw [if_neg he]
    refine h.quiet hi (by simp) ⟨rfl, rfl, rfl, rfl, rfl, rfl⟩ rfl rfl rfl rfl rfl (by simp) id id
      (fun v hv => hv) ⟨hl, ?_⟩ (fun k => rfl) (fun k => rfl)
      h.err h.errz (Or.inr (Or.inr ⟨rfl, rfl⟩)) (fun j => rfl)
    cases fs with
    | false => trivial
    | true => exact (hl.1 rfl).2.resolve_left he

theorem step_take {g : Cfg} {st : State} {i : Nat} {fs : Bool} {o : Option Nat} (h : Inv g st)
    (hi : st.reqs[i]? = some (.take fs o)) :
    Inv g { st with next := st.next + 1,
                    reqs := st.reqs.set i (if nParts g ≤ st.next then .drop fs none
                      else .post fs (some st.next) false) } := by
  have hl := h.loc i _ hi
  have hin : i ≤ st.next := by
    cases fs with
    | true => exact hl.2
    | false => obtain ⟨k, a, c, d, e⟩ := hl.1.2 rfl; omega
  by_cases he : nParts g ≤ st.next
  · rw [if_pos he]
    refine h.move hi (by simp) ⟨rfl, rfl, rfl, rfl, rfl, rfl, by simp, id, by simp, id, fun v hv => hv,
      ⟨⟨Or.inr (by simp; omega), by simp⟩, trivial⟩, ?_, fun k => rfl, h.err, h.errz,
      (Or.inr (Or.inr ⟨rfl, rfl⟩)), fun j => rfl, h.filled, h.drained, h.fails⟩
    intro k
    have : ind g (st.next + 1) k = ind g st.next k := by
      unfold ind
      by_cases hk : k < nParts g
      · rw [if_pos ⟨by omega, hk⟩, if_pos ⟨by omega, hk⟩]
      · rw [if_neg (fun hc => hk hc.2), if_neg (fun hc => hk hc.2)]
    show _ = st.issued.count k + b (pend k _) + ind g (st.next + 1) k
    rw [this]; rfl
  · rw [if_neg he]
    refine h.move hi (by simp) ⟨rfl, rfl, rfl, rfl, rfl, rfl, by simp, id, by simp, id, fun v hv => hv,
      ⟨⟨st.next, rfl, hin, by simp, by omega⟩, trivial⟩, ?_, fun k => rfl, h.err, h.errz,
      (Or.inr (Or.inr ⟨rfl, rfl⟩)), fun j => rfl, h.filled, h.drained, h.fails⟩
    intro k
    show st.issued.count k + b (pend k (.post fs (some st.next) false)) + ind g st.next k =
      st.issued.count k + b (pend k (.take fs o)) + ind g (st.next + 1) k
    simp only [pend, b_false, ind, b, Option.some.injEq, Bool.not_false, Bool.and_true, decide_eq_true_eq]
    by_cases hk : st.next = k
    · subst hk
      rw [if_pos rfl, if_neg (by omega), if_pos (by omega)]; simp
    · rw [if_neg hk]
      by_cases hk2 : k < st.next ∧ k < nParts g
      · rw [if_pos hk2, if_pos (by omega)]; simp
      · rw [if_neg hk2, if_neg (by omega)]; simp

theorem step_drop {g : Cfg} {st : State} {i : Nat} {fs : Bool} {o : Option Nat} (h : Inv g st)
    (hi : st.reqs[i]? = some (.drop fs o)) :
    Inv g { st with remaining := st.remaining - 1,
                    reqs := st.reqs.set i (if st.remaining - 1 = 0 then .call fs o else .free fs o) } := by
  have hl := h.loc i _ hi
  have hr := h.rem_pos hi rfl
  by_cases he : st.remaining - 1 = 0
  · rw [if_pos he]
    refine h.quiet hi (by simp) ⟨rfl, rfl, rfl, rfl, rfl, rfl⟩ rfl ?_ rfl ?_ rfl (by simp) id id
      (fun v hv => hv) hl (fun k => rfl) (fun k => rfl)
      h.err h.errz (Or.inr (Or.inr ⟨rfl, rfl⟩)) (fun j => rfl)
    · show st.remaining - 1 + 1 = st.remaining + 0
      omega
    · show st.calls.length + 1 + _ = st.calls.length + 0 + if st.remaining - 1 = 0 then 1 else 0
      rw [if_neg (by omega), if_pos he]
  · rw [if_neg he]
    refine h.quiet hi (by simp) ⟨rfl, rfl, rfl, rfl, rfl, rfl⟩ rfl ?_ rfl ?_ rfl (by simp) id id
      (fun v hv => hv) hl (fun k => rfl) (fun k => rfl)
      h.err h.errz (Or.inr (Or.inr ⟨rfl, rfl⟩)) (fun j => rfl)
    · show st.remaining - 1 + 1 = st.remaining + 0
      omega
    · show st.calls.length + 0 + _ = st.calls.length + 0 + if st.remaining - 1 = 0 then 1 else 0
      rw [if_neg (by omega), if_neg he]

theorem step_call {g : Cfg} {st : State} {i : Nat} {fs : Bool} {o : Option Nat} (h : Inv g st)
    (hi : st.reqs[i]? = some (.call fs o)) :
    Inv g { st with calls := st.calls ++ [st.error], reqs := st.reqs.set i (.free fs o) } := by
  have hl := h.loc i _ hi
  refine h.quiet hi (by simp) ⟨rfl, rfl, rfl, rfl, rfl, rfl⟩ rfl rfl rfl ?_ rfl (by simp) id id
    (fun v hv => hv) hl (fun k => rfl) (fun k => rfl)
    h.err h.errz (Or.inr (Or.inr ⟨rfl, rfl⟩)) (fun j => rfl)
  show (st.calls ++ [st.error]).length + 0 + _ = st.calls.length + 1 + _
  simp

theorem step_free {g : Cfg} {st : State} {i : Nat} {fs : Bool} {o : Option Nat} (h : Inv g st)
    (hi : st.reqs[i]? = some (.free fs o)) :
    Inv g { st with freed := st.freed ++ [i], reqs := st.reqs.set i (.post fs o true) } := by
  have hl := h.loc i _ hi
  refine h.quiet hi (by simp) ⟨rfl, rfl, rfl, rfl, rfl, rfl⟩ rfl rfl rfl rfl rfl (by simp) id id
    (fun v hv => hv) hl (fun k => by simp [pend]) (fun k => rfl)
    h.err h.errz (Or.inr (Or.inr ⟨rfl, rfl⟩)) ?_
  intro j
  show (st.freed ++ [i]).count j + _ = _
  simp only [List.count_append, List.count_cons, List.count_nil, isFreed, b_true, b_false]
  by_cases hj : j = i
  · subst hj; simp
  · have : ¬ i = j := fun e => hj e.symm
    simp [hj, this]

theorem step_post {g : Cfg} {st : State} {i : Nat} {fs : Bool} {o : Option Nat} {ended : Bool} {ph' : Ph}
    (h : Inv g st) (hi : st.reqs[i]? = some (.post fs o ended))
    (hp : (ended = true ∧ ph' = .fin none) ∨
      (ended = false ∧ ∃ k, o = some k ∧ ((st.error ≠ 0 ∧ ph' = .fin (some k)) ∨ ph' = .lock k))) :
    Inv g { st with reqs := st.reqs.set i ph' } := by
  have hl := h.loc i _ hi
  rcases hp with ⟨rfl, rfl⟩ | ⟨rfl, k, rfl, ⟨he, rfl⟩ | rfl⟩
  · refine h.quiet hi (by simp) ⟨rfl, rfl, rfl, rfl, rfl, rfl⟩ rfl rfl rfl rfl rfl (by simp) (by simp [Ph.starting]) id
      (fun v hv => hv) ⟨hl.1.1, trivial⟩ (fun k => by simp [pend]) (fun k => rfl)
      h.err h.errz (Or.inr (Or.inr ⟨rfl, rfl⟩)) (fun j => rfl)
  · obtain ⟨j, e, hl⟩ := hl.1
    cases e
    refine h.quiet hi (by simp) ⟨rfl, rfl, rfl, rfl, rfl, rfl⟩ rfl rfl rfl rfl rfl (by simp) (by simp [Ph.starting]) id
      (fun v hv => hv) ⟨⟨he, hl⟩, trivial⟩ (fun k => by simp [pend]) (fun k => rfl)
      h.err h.errz (Or.inr (Or.inr ⟨rfl, rfl⟩)) (fun j => rfl)
  · obtain ⟨j, e, hl⟩ := hl.1
    cases e
    refine h.quiet hi (by simp) ⟨rfl, rfl, rfl, rfl, rfl, rfl⟩ rfl rfl rfl rfl rfl (by simp) (by simp [Ph.starting]) id
      (fun v hv => hv) ⟨hl, trivial⟩ (fun k => by simp [pend]) (fun k => rfl)
      h.err h.errz (Or.inr (Or.inr ⟨rfl, rfl⟩)) (fun j => rfl)

theorem step_err {g : Cfg} {st : State} {i k : Nat} {v : Int} (h : Inv g st)
    (hi : st.reqs[i]? = some (.err k v)) :
    Inv g { st with error := v, reqs := st.reqs.set i (.check false (some k)) } := by
  have hl := (h.loc i _ hi).1
  exact h.quiet hi (by simp) ⟨rfl, rfl, rfl, rfl, rfl, rfl⟩ rfl rfl rfl rfl rfl (by simp) (by simp [Ph.starting])
    (fun _ => hl.2.1)
    (fun v hv => hv) ⟨⟨fun hf => absurd hf (by decide), fun _ => ⟨k, rfl, hl.1⟩⟩, trivial⟩ (fun k => rfl) (fun k => rfl)
    (fun _ => hl.2.2) h.errz (Or.inl hl.2.1) (fun j => rfl)

theorem step_lerr {g : Cfg} {st : State} {i k : Nat} {v : Int} (h : Inv g st)
    (hi : st.reqs[i]? = some (.lerr k v)) :
    Inv g { st with error := v, reqs := st.reqs.set i (.fin (some k)) } := by
  have hl := (h.loc i _ hi).1
  exact h.quiet hi (by simp) ⟨rfl, rfl, rfl, rfl, rfl, rfl⟩ rfl rfl rfl rfl rfl (by simp) (by simp [Ph.starting])
    (fun _ => hl.2.1)
    (fun v hv => hv) ⟨⟨hl.2.1, hl.1⟩, trivial⟩ (fun j => by simp [pend]) (fun k => rfl)
    (fun _ => hl.2.2) h.errz (Or.inl hl.2.1) (fun j => rfl)

theorem step_fin {g : Cfg} {st : State} {i : Nat} {lost : Option Nat} (h : Inv g st)
    (hi : st.reqs[i]? = some (.fin lost)) :
    Inv g { st with active := st.active - 1,
                    reqs := st.reqs.set i (if st.active - 1 = 0 then .del lost else .done lost) } := by
  have hl := h.loc i _ hi
  have hr := h.act_pos hi rfl
  by_cases he : st.active - 1 = 0
  · rw [if_pos he]
    refine h.quiet hi (by simp) ⟨rfl, rfl, rfl, rfl, rfl, rfl⟩ rfl rfl ?_ rfl ?_ (by simp) id id
      (fun v hv => hv) hl (fun k => rfl) (fun k => rfl)
      h.err h.errz (Or.inr (Or.inr ⟨rfl, rfl⟩)) (fun j => rfl)
    · show st.active - 1 + 1 = st.active + 0
      omega
    · show st.deleted + 1 + _ = st.deleted + 0 + if st.active - 1 = 0 then 1 else 0
      rw [if_neg (by omega), if_pos he]
  · rw [if_neg he]
    refine h.quiet hi (by simp) ⟨rfl, rfl, rfl, rfl, rfl, rfl⟩ rfl rfl ?_ rfl ?_ (by simp) id id
      (fun v hv => hv) hl (fun k => rfl) (fun k => rfl)
      h.err h.errz (Or.inr (Or.inr ⟨rfl, rfl⟩)) (fun j => rfl)
    · show st.active - 1 + 1 = st.active + 0
      omega
    · show st.deleted + 0 + _ = st.deleted + 0 + if st.active - 1 = 0 then 1 else 0
      rw [if_neg (by omega), if_neg he]

theorem step_del {g : Cfg} {st : State} {i : Nat} {lost : Option Nat} (h : Inv g st)
    (hi : st.reqs[i]? = some (.del lost)) :
    Inv g { st with deleted := st.deleted + 1, reqs := st.reqs.set i (.done lost) } := by
  have hl := h.loc i _ hi
  exact h.quiet hi (by simp) ⟨rfl, rfl, rfl, rfl, rfl, rfl⟩ rfl rfl rfl rfl rfl (by simp) id id
    (fun v hv => hv) hl (fun k => rfl) (fun k => rfl)
    h.err h.errz (Or.inr (Or.inr ⟨rfl, rfl⟩)) (fun j => rfl)

theorem step_queued {g : Cfg} {st : State} {i k : Nat} (h : Inv g st) (hi : st.reqs[i]? = some (.lock k)) :
    Inv g { st with reqs := st.reqs.set i (.wait k) } := by
  have hl := h.loc i _ hi
  exact h.quiet hi (by simp) ⟨rfl, rfl, rfl, rfl, rfl, rfl⟩ rfl rfl rfl rfl rfl (by simp) id id
    (fun v hv => hv) hl (fun k => rfl) (fun k => rfl)
    h.err h.errz (Or.inr (Or.inr ⟨rfl, rfl⟩)) (fun j => rfl)

theorem step_failed {g : Cfg} {st : State} {i k : Nat} {v : Int} (hv : v ≠ 0) (h : Inv g st)
    (hi : st.reqs[i]? = some (.lock k)) :
    Inv g { st with errs := st.errs ++ [v], reqs := st.reqs.set i (.lerr k v) } := by
  have hl := h.loc i _ hi
  refine h.quiet hi (by simp) ⟨rfl, rfl, rfl, rfl, rfl, rfl⟩ rfl rfl rfl rfl rfl (by simp) (by simp [Ph.starting]) id
    (fun v hv => List.mem_append_left _ hv) ⟨⟨hl.1, hv, by simp⟩, trivial⟩ (fun k => rfl) (fun k => rfl)
    (fun he => List.mem_append_left _ (h.err he)) ?_ (Or.inr (Or.inl rfl)) (fun j => rfl)
  have := h.errz
  simp only [List.mem_append, List.mem_singleton]
  rintro (hc | hc)
  · exact this hc
  · exact hv hc.symm

theorem step_issue {g : Cfg} {st : State} {i k : Nat} (h : Inv g st)
    (hi : st.reqs[i]? = some (.lock k) ∨ st.reqs[i]? = some (.wait k)) : Inv g (issue g st i k) := by
  have key : ∀ ph : Ph, st.reqs[i]? = some ph → (ph = .lock k ∨ ph = .wait k) → Inv g (issue g st i k) := by
    intro ph hi hph
    have hl := (h.loc i _ hi).1
    have f1 : b (holdsRem ph) = 1 ∧ b (holdsAct ph) = 1 ∧ b (isCall ph) = 0 ∧ b (isDel ph) = 0 ∧
        isErr ph = false ∧ b (isFreed ph) = 0 ∧ (∀ j, b (isIo j ph) = 0) ∧
        (∀ j, pend j ph = decide (k = j)) ∧ (i ≤ k ∧ k < st.next ∧ k < nParts g) := by
      rcases hph with rfl | rfl <;> exact ⟨rfl, rfl, rfl, rfl, rfl, rfl, fun _ => rfl, fun _ => rfl, hl⟩
    obtain ⟨a1, a2, a3, a4, a5, a6, a7, a8, a9⟩ := f1
    refine h.move (ph' := .io k) hi (by rcases hph with rfl | rfl <;> simp) ⟨rfl, rfl, ?_, ?_, ?_, ?_, by simp,
      by simp [Ph.starting], Nat.le_refl _, id, fun v hv => hv,
      ⟨a9, trivial⟩, ?_, ?_, h.err, h.errz,
      (Or.inr (Or.inr ⟨rfl, a5⟩)), ?_, ?_, h.drained, h.fails⟩
    · rw [a1]; rfl
    · rw [a2]; rfl
    · rw [a3]; rfl
    · rw [a4]; rfl
    · intro j
      show (st.issued ++ [k]).count j + b false + _ = _
      rw [a8, List.count_append]
      simp only [List.count_cons, List.count_nil, b, issue]
      by_cases hj : k = j <;> simp [hj] <;> omega
    · intro j
      show _ + b (decide (k = j)) + _ = _ + (st.issued ++ [k]).count j
      rw [a7, List.count_append]
      simp only [List.count_cons, List.count_nil, b, issue]
      by_cases hj : k = j <;> simp [hj] <;> omega
    · intro j; rw [a6]; rfl
    · have := h.filled
      show (if g.read then st.filled else st.filled ++ partPages g k) =
        if g.read then [] else (st.issued ++ [k]).flatMap (partPages g)
      rw [this]
      by_cases hr : g.read = true
      · rw [if_pos hr, if_pos hr, if_pos hr]
      · rw [if_neg hr, if_neg hr, if_neg hr, List.flatMap_append]; simp
  rcases hi with hi | hi
  · exact key _ hi (Or.inl rfl)
  · exact key _ hi (Or.inr rfl)

theorem step_ok {g : Cfg} {st : State} {i k : Nat} (h : Inv g st) (hi : st.reqs[i]? = some (.io k)) :
    Inv g { st with finished := st.finished ++ [(k, 0)],
                    drained := if g.read then st.drained ++ partPages g k else st.drained,
                    reqs := st.reqs.set i (.check false (some k)) } := by
  have hl := (h.loc i _ hi).1
  refine h.move hi (by simp) ⟨rfl, rfl, rfl, rfl, rfl, rfl, by simp, by simp [Ph.starting], Nat.le_refl _, id,
    fun v hv => hv, ⟨⟨fun hf => absurd hf (by decide), fun _ => ⟨k, rfl, hl⟩⟩, trivial⟩, fun k => rfl, ?_, h.err, h.errz,
    (Or.inr (Or.inr ⟨rfl, rfl⟩)), fun j => rfl, h.filled, ?_, ?_⟩
  · intro j
    show ((st.finished ++ [(k, (0 : Int))]).map Prod.fst).count j + b false + _ = _ + b (decide (k = j)) + _
    rw [List.map_append, List.count_append]
    simp only [List.map_cons, List.map_nil, List.count_cons, List.count_nil, b]
    by_cases hj : k = j <;> simp [hj]
  · have := h.drained
    show (if g.read then st.drained ++ partPages g k else st.drained) = if g.read then
      (((st.finished ++ [(k, (0 : Int))]).filter (fun p => p.2 = 0)).map Prod.fst).flatMap (partPages g) else []
    rw [this]
    by_cases hr : g.read = true
    · simp [hr]
    · simp [hr]
  · intro p hp
    rcases List.mem_append.1 hp with hp | hp
    · exact h.fails p hp
    · rw [List.mem_singleton] at hp; subst hp; exact Or.inl rfl

theorem step_bad {g : Cfg} {st : State} {i k : Nat} {e : Int} (he : e ≠ 0) (h : Inv g st)
    (hi : st.reqs[i]? = some (.io k)) :
    Inv g { st with finished := st.finished ++ [(k, e)], errs := st.errs ++ [e],
                    reqs := st.reqs.set i (.err k (if st.error ≠ 0 then st.error else e)) } := by
  have hl := (h.loc i _ hi).1
  refine h.move hi (by simp) ⟨rfl, rfl, rfl, rfl, rfl, rfl, by simp, by simp [Ph.starting], Nat.le_refl _, id,
    fun v hv => List.mem_append_left _ hv, ⟨⟨hl, ?_⟩, trivial⟩, fun k => rfl, ?_,
    fun h0 => List.mem_append_left _ (h.err h0), ?_,
    (Or.inr (Or.inl rfl)), fun j => rfl, h.filled, ?_, ?_⟩
  · by_cases h0 : st.error ≠ 0
    · rw [if_pos h0]; exact ⟨h0, List.mem_append_left _ (h.err h0)⟩
    · rw [if_neg h0]; exact ⟨he, List.mem_append_right _ (by simp)⟩
  · intro j
    show ((st.finished ++ [(k, e)]).map Prod.fst).count j + b false + _ = _ + b (decide (k = j)) + _
    rw [List.map_append, List.count_append]
    simp only [List.map_cons, List.map_nil, List.count_cons, List.count_nil, b]
    by_cases hj : k = j <;> simp [hj]
  · have := h.errz
    simp only [List.mem_append, List.mem_singleton]
    rintro (hc | hc)
    · exact this hc
    · exact he hc.symm
  · have := h.drained
    show st.drained = if g.read then
      (((st.finished ++ [(k, e)]).filter (fun p => p.2 = 0)).map Prod.fst).flatMap (partPages g) else []
    rw [this]
    by_cases hr : g.read = true
    · simp [hr, he]
    · simp [hr]
  · intro p hp
    rcases List.mem_append.1 hp with hp | hp
    · exact (h.fails p hp).imp id (List.mem_append_left _)
    · rw [List.mem_singleton] at hp; subst hp; exact Or.inr (List.mem_append_right _ (by simp))

theorem main_begin {g : Cfg} {st : State} {i : Nat} (h : Inv g st) (hpc : st.pc = .start i)
    (hi : st.reqs[i]? = some .idle) :
    Inv g { st with remaining := st.remaining + 1, reqs := st.reqs.set i .begin } := by
  have hlt := lt_of_get hi
  have hset : ∀ j, (st.reqs.set i .begin)[j]? = if i = j then some .begin else st.reqs[j]? := by
    intro j
    rw [List.getElem?_set]
    by_cases hj : i = j
    · subst hj; simp [hlt]
    · simp [hj]
  have cnt := fun p => countP_set p st.reqs i .begin .idle hi
  have hr : 0 < st.remaining := by
    have := h.rem
    rw [hpc] at this
    simp only [mainRem] at this
    omega
  constructor
  · show (st.reqs.set i .begin).length = _
    rw [List.length_set]; exact h.len
  · exact h.posle
  · have := cnt holdsRem; have := h.rem
    simp only [holdsRem] at *
    show st.remaining + 1 = mainRem st.pc + (st.reqs.set i .begin).countP holdsRem
    simp at this; simp_all; omega
  · have := cnt holdsAct; have := h.act
    show st.active = mainAct st.pc + (st.reqs.set i .begin).countP holdsAct
    simp [holdsAct] at *; omega
  · have h1 := cnt isCall; have h2 := h.calls
    show st.calls.length + mainCall st.pc + (st.reqs.set i .begin).countP isCall = if st.remaining + 1 = 0 then 1 else 0
    rw [if_neg (by omega)]
    rw [if_neg (by omega)] at h2
    have e1 : isCall .begin = false := rfl
    have e2 : isCall .idle = false := rfl
    rw [e1, e2] at h1
    simp only [Bool.false_eq_true, if_false] at h1
    omega
  · have := cnt isDel; have := h.dels
    show st.deleted + mainDel st.pc + (st.reqs.set i .begin).countP isDel = if st.active = 0 then 1 else 0
    simp [isDel] at *; omega
  · intro j x hj
    have hj : (st.reqs.set i .begin)[j]? = some x := hj
    rw [hset] at hj
    show (pos (nReqs g) st.pc < j → _) ∧ (j < pos (nReqs g) st.pc → _)
    by_cases hij : i = j
    · subst hij
      rw [hpc]; simp [pos]
    · rw [if_neg hij] at hj
      exact h.order j x hj
  · exact h.adv
  · intro j x hj
    have hj : (st.reqs.set i .begin)[j]? = some x := hj
    rw [hset] at hj
    by_cases hij : i = j
    · subst hij
      rw [if_pos rfl] at hj
      cases hj
      exact ⟨trivial, trivial⟩
    · rw [if_neg hij] at hj
      exact h.loc j x hj
  · intro k
    have := cnt (pend k); have := h.part k
    show st.issued.count k + (st.reqs.set i .begin).countP (pend k) = ind g st.next k
    simp [pend] at *; omega
  · intro k
    have := cnt (isIo k); have := h.fly k
    show (st.finished.map Prod.fst).count k + (st.reqs.set i .begin).countP (isIo k) = st.issued.count k
    simp [isIo] at *; omega
  · exact h.err
  · exact h.errz
  · intro hne
    rcases h.errs hne with he | ⟨j, x, hj, hx⟩
    · exact Or.inl he
    · refine Or.inr ⟨j, x, ?_, hx⟩
      show (st.reqs.set i .begin)[j]? = some x
      rw [hset, if_neg]
      · exact hj
      · rintro rfl
        rw [hi] at hj
        cases hj
        exact absurd hx (by decide)
  · intro j
    have h2 := h.bufs j
    show st.freed.count j = match (st.reqs.set i .begin)[j]? with
      | some ph => b (isFreed ph)
      | none => 0
    rw [hset, h2]
    by_cases hij : i = j
    · subst hij; rw [hi, if_pos rfl]; rfl
    · rw [if_neg hij]; rfl
  · exact h.filled
  · exact h.drained
  · exact h.fails

theorem main_next {g : Cfg} {st : State} {i : Nat} {ph : Ph} (h : Inv g st) (hpc : st.pc = .start i)
    (hi : st.reqs[i]? = some ph) (hid : ph ≠ .idle) (hs : ph.starting = false) :
    Inv g { st with pc := .start (i + 1) } := by
  have hlt := lt_of_get hi
  have hp : ∀ n, pos n st.pc = i := by intro n; rw [hpc]; rfl
  constructor
  · exact h.len
  · have := h.len; simp only [pos]; omega
  · have := h.rem; rw [hpc] at this; exact this
  · have := h.act; rw [hpc] at this; exact this
  · have := h.calls; rw [hpc] at this; exact this
  · have := h.dels; rw [hpc] at this; exact this
  · intro j x hj
    have ho := h.order j x hj
    rw [hp] at ho
    simp only [pos]
    refine ⟨fun hl => ho.1 (by omega), fun hl => ?_⟩
    by_cases hji : j = i
    · subst hji; rw [hi] at hj; cases hj; exact ⟨hid, hs⟩
    · exact ho.2 (by omega)
  · exact (h.loc i ph hi).1.past (h.lt_parts hi) hid hs
  · exact h.loc
  · exact h.part
  · exact h.fly
  · exact h.err
  · exact h.errz
  · exact h.errs
  · exact h.bufs
  · exact h.filled
  · exact h.drained
  · exact h.fails

theorem main_end {g : Cfg} {st : State} {i : Nat} (h : Inv g st) (hpc : st.pc = .start i)
    (hi : st.reqs[i]? = none) :
    Inv g { st with remaining := st.remaining - 1, pc := if st.remaining - 1 = 0 then .call else .fin } := by
  have hp : ∀ n, pos n st.pc = i := by intro n; rw [hpc]; rfl
  have hin : i = nReqs g := by
    have h1 := h.posle
    rw [hp] at h1
    have h2 := h.len
    rw [List.getElem?_eq_none_iff] at hi
    omega
  have hp2 : pos (nReqs g) (if st.remaining - 1 = 0 then .call else .fin) = pos (nReqs g) st.pc := by
    rw [hp, hin]; split <;> rfl
  have hr : st.remaining = 1 + st.reqs.countP holdsRem := by have := h.rem; rw [hpc] at this; exact this
  constructor
  · exact h.len
  · show pos _ (if _ then _ else _) ≤ _
    rw [hp2]; exact h.posle
  · show st.remaining - 1 = mainRem (if st.remaining - 1 = 0 then .call else .fin) + _
    have : mainRem (if st.remaining - 1 = 0 then .call else .fin) = 0 := by split <;> rfl
    simp only at *; omega
  · show st.active = mainAct (if st.remaining - 1 = 0 then .call else .fin) + _
    have h1 : mainAct (if st.remaining - 1 = 0 then .call else .fin) = 1 := by split <;> rfl
    rw [h1]
    have := h.act; rw [hpc] at this; exact this
  · show st.calls.length + mainCall (if st.remaining - 1 = 0 then .call else .fin) + _ = if st.remaining - 1 = 0 then 1 else 0
    have h1 := h.calls
    rw [hpc, if_neg (by omega)] at h1
    by_cases h0 : st.remaining - 1 = 0
    · rw [if_pos h0, if_pos h0]
      have h1 : st.calls.length + 0 + st.reqs.countP isCall = 0 := h1
      show st.calls.length + 1 + st.reqs.countP isCall = 1
      omega
    · rw [if_neg h0, if_neg h0]; exact h1
  · show st.deleted + mainDel (if st.remaining - 1 = 0 then .call else .fin) + _ = _
    have h1 : mainDel (if st.remaining - 1 = 0 then .call else .fin) = mainDel st.pc := by
      rw [hpc]; split <;> rfl
    rw [h1]; exact h.dels
  · intro j x hj
    show (pos _ (if _ then _ else _) < j → _) ∧ (j < pos _ (if _ then _ else _) → _)
    rw [hp2]; exact h.order j x hj
  · show _ ∨ pos _ (if _ then _ else _) ≤ _
    rw [hp2]; exact h.adv
  · exact h.loc
  · exact h.part
  · exact h.fly
  · exact h.err
  · exact h.errz
  · exact h.errs
  · exact h.bufs
  · exact h.filled
  · exact h.drained
  · exact h.fails

theorem main_call {g : Cfg} {st : State} (h : Inv g st) (hpc : st.pc = .call) :
    Inv g { st with calls := st.calls ++ [st.error], pc := .fin } := by
  constructor
  · exact h.len
  · have := h.posle; rw [hpc] at this; exact this
  · have := h.rem; rw [hpc] at this; exact this
  · have := h.act; rw [hpc] at this; exact this
  · have := h.calls; rw [hpc] at this
    show (st.calls ++ [st.error]).length + 0 + _ = _
    rw [← this]; simp [mainCall]
  · have := h.dels; rw [hpc] at this; exact this
  · have := h.order; rw [hpc] at this; exact this
  · have := h.adv; rw [hpc] at this; exact this
  · exact h.loc
  · exact h.part
  · exact h.fly
  · exact h.err
  · exact h.errz
  · exact h.errs
  · exact h.bufs
  · exact h.filled
  · exact h.drained
  · exact h.fails

theorem main_fin {g : Cfg} {st : State} (h : Inv g st) (hpc : st.pc = .fin) :
    Inv g { st with active := st.active - 1, pc := if st.active - 1 = 0 then .del else .done } := by
  have hp2 : pos (nReqs g) (if st.active - 1 = 0 then .del else .done) = pos (nReqs g) st.pc := by
    rw [hpc]; split <;> rfl
  have hr : st.active = 1 + st.reqs.countP holdsAct := by have := h.act; rw [hpc] at this; exact this
  constructor
  · exact h.len
  · show pos _ (if _ then _ else _) ≤ _
    rw [hp2]; exact h.posle
  · show st.remaining = mainRem (if st.active - 1 = 0 then .del else .done) + _
    have h1 : mainRem (if st.active - 1 = 0 then .del else .done) = 0 := by split <;> rfl
    rw [h1]
    have := h.rem; rw [hpc] at this; exact this
  · show st.active - 1 = mainAct (if st.active - 1 = 0 then .del else .done) + _
    have : mainAct (if st.active - 1 = 0 then .del else .done) = 0 := by split <;> rfl
    simp only at *; omega
  · show st.calls.length + mainCall (if st.active - 1 = 0 then .del else .done) + _ = _
    have h1 : mainCall (if st.active - 1 = 0 then .del else .done) = mainCall st.pc := by
      rw [hpc]; split <;> rfl
    rw [h1]; exact h.calls
  · show st.deleted + mainDel (if st.active - 1 = 0 then .del else .done) + _ = if st.active - 1 = 0 then 1 else 0
    have h1 := h.dels
    rw [hpc, if_neg (by omega)] at h1
    by_cases h0 : st.active - 1 = 0
    · rw [if_pos h0, if_pos h0]
      have h1 : st.deleted + 0 + st.reqs.countP isDel = 0 := h1
      show st.deleted + 1 + st.reqs.countP isDel = 1
      omega
    · rw [if_neg h0, if_neg h0]; exact h1
  · intro j x hj
    show (pos _ (if _ then _ else _) < j → _) ∧ (j < pos _ (if _ then _ else _) → _)
    rw [hp2]; exact h.order j x hj
  · show _ ∨ pos _ (if _ then _ else _) ≤ _
    rw [hp2]; exact h.adv
  · exact h.loc
  · exact h.part
  · exact h.fly
  · exact h.err
  · exact h.errz
  · exact h.errs
  · exact h.bufs
  · exact h.filled
  · exact h.drained
  · exact h.fails

theorem main_del {g : Cfg} {st : State} (h : Inv g st) (hpc : st.pc = .del) :
    Inv g { st with deleted := st.deleted + 1, pc := .done } := by
  constructor
  · exact h.len
  · have := h.posle; rw [hpc] at this; exact this
  · have := h.rem; rw [hpc] at this; exact this
  · have := h.act; rw [hpc] at this; exact this
  · have := h.calls; rw [hpc] at this; exact this
  · have := h.dels; rw [hpc] at this
    show st.deleted + 1 + 0 + _ = _
    rw [← this]; simp [mainDel]
  · have := h.order; rw [hpc] at this; exact this
  · have := h.adv; rw [hpc] at this; exact this
  · exact h.loc
  · exact h.part
  · exact h.fly
  · exact h.err
  · exact h.errz
  · exact h.errs
  · exact h.bufs
  · exact h.filled
  · exact h.drained
  · exact h.fails

theorem execStep_inv {g : Cfg} {st st' : State} {i : Nat} {ph : Ph} (h : Inv g st)
    (hi : st.reqs[i]? = some ph) (he : execStep g st i ph = some st') : Inv g st' := by
  cases ph with
  | idle | lock k | wait k | io k | done l => cases he
  | begin => cases he; exact step_begin h hi
  | check fs o => cases he; exact step_check h hi
  | take fs o => cases he; exact step_take h hi
  | drop fs o => cases he; exact step_drop h hi
  | call fs o => cases he; exact step_call h hi
  | free fs o => cases he; exact step_free h hi
  | err k v => cases he; exact step_err h hi
  | lerr k v => cases he; exact step_lerr h hi
  | fin l => cases he; exact step_fin h hi
  | del l => cases he; exact step_del h hi
  | post fs o ended =>
    have hl := (h.loc i _ hi).1
    cases ended with
    | false =>
      obtain ⟨k, rfl, hl⟩ := hl
      cases fs with
      | true => cases he; exact step_post h hi (Or.inr ⟨rfl, k, rfl, Or.inr rfl⟩)
      | false =>
        cases he
        refine step_post h hi (Or.inr ⟨rfl, k, rfl, ?_⟩)
        by_cases h0 : st.error ≠ 0
        · rw [if_pos h0]; exact Or.inl ⟨h0, rfl⟩
        · rw [if_neg h0]; exact Or.inr rfl
    | true =>
      cases o with
      | none =>
        cases fs with
        | true => cases he; exact step_post h hi (Or.inl ⟨rfl, rfl⟩)
        | false => cases he; exact step_post h hi (Or.inl ⟨rfl, rfl⟩)
      | some k =>
        obtain ⟨rfl, h0⟩ := hl.2 k rfl
        cases he
        rw [if_pos h0]
        exact step_post h hi (Or.inl ⟨rfl, rfl⟩)

theorem exec_inv {g : Cfg} {st st' : State} {op : Op} (h : Inv g st) (he : exec g st op = some st') :
    Inv g st' := by
  cases op with
  | main =>
    simp only [exec, execMain] at he
    split at he
    · rename_i i hpc
      split at he
      · rename_i hi; cases he; exact main_end h hpc hi
      · rename_i hi; cases he; exact main_begin h hpc hi
      · rename_i ph hid hi
        split at he
        · cases he
        · rename_i hs; cases he; exact main_next h hpc hi hid (by simpa using hs)
    · rename_i hpc; cases he; exact main_call h hpc
    · rename_i hpc; cases he; exact main_fin h hpc
    · rename_i hpc; cases he; exact main_del h hpc
    · cases he
  | step i =>
    simp only [exec] at he
    cases hi : st.reqs[i]? with
    | none => rw [hi] at he; cases he
    | some ph => rw [hi] at he; exact execStep_inv h hi he
  | lockRes i r =>
    simp only [exec] at he
    split at he
    · rename_i k hi; cases he; exact step_issue h (Or.inl hi)
    · rename_i k hi; cases he; exact step_queued h hi
    · rename_i k v hi
      split at he
      · cases he
      · rename_i hv; cases he; exact step_failed hv h hi
    · cases he
  | grant i =>
    simp only [exec] at he
    split at he
    · rename_i k hi; cases he; exact step_issue h (Or.inr hi)
    · cases he
  | ioEnd i e =>
    simp only [exec] at he
    split at he
    · rename_i k hi
      split at he
      · rename_i h0; subst h0; cases he; exact step_ok h hi
      · rename_i h0; cases he; exact step_bad h0 h hi
    · cases he

theorem run_inv {g : Cfg} {st st' : State} {ops : List Op} (h : Inv g st) (r : Run g st ops st') :
    Inv g st' := by
  induction r with
  | nil => exact h
  | snoc _ he ih => exact exec_inv ih he

end Verif.MetaIo
