import Verif.Lemma.AcpStep

/-! Lemmas about choosing and collecting for the ACP cleaning policy. -/

namespace Verif.Acp

open Verif.Collision (upd upd_same upd_ne)

theorem candidate_some {a : Ctx} {opened : Nat → Bool} {now : Nat} {k : Key}
    (h : candidate a opened now = some k) :
    ∃ b, 1 ≤ b ∧ b ≤ 10 ∧ k ∈ a.list b ∧ canClean a opened now k = true ∧
      ∀ b', b < b' → b' ≤ 10 → ∀ j ∈ a.list b', canClean a opened now j = false := by
  unfold candidate maxBuckets at h
  obtain ⟨l1, i, l2, e, hi, hno⟩ := List.findSome?_eq_some_iff.1 h
  have hlen : l1.length = i := by
    have h1 : (List.range (11 - 1))[l1.length]? = some i := by rw [e]; simp
    have h2 := List.getElem?_eq_some_iff.1 h1
    obtain ⟨_, h2⟩ := h2
    rw [List.getElem_range] at h2; exact h2
  have hi10 : i < 10 := List.mem_range.1 (by rw [e]; simp : i ∈ List.range (11 - 1))
  refine ⟨10 - i, by omega, by omega, List.mem_of_find?_eq_some hi, List.find?_some hi, ?_⟩
  intro b' hb hb' j hj
  have hmem : 10 - b' ∈ l1 := by
    have h1 : (List.range (11 - 1))[10 - b']? = some (10 - b') := by
      rw [List.getElem?_range (by omega)]
    rw [e, List.getElem?_append_left (by omega)] at h1
    exact List.mem_of_getElem? h1
  have := hno _ hmem
  rw [show 11 - 1 - (10 - b') = b' by omega, List.find?_eq_none] at this
  have := this j hj
  simpa using this

theorem candidate_none {a : Ctx} {opened : Nat → Bool} {now : Nat}
    (h : candidate a opened now = none) {b : Nat} (h1 : 1 ≤ b) (h2 : b ≤ 10) {j : Key}
    (hj : j ∈ a.list b) : canClean a opened now j = false := by
  unfold candidate maxBuckets at h
  have := List.findSome?_eq_none_iff.1 h (10 - b) (List.mem_range.2 (by omega))
  rw [show 11 - 1 - (10 - b) = b by omega, List.find?_eq_none] at this
  have := this j hj
  simpa using this

theorem prepare_spec (look : Nat → Option Nat) (P : Nat) : ∀ (fuel max iter : Nat), iter + fuel = P →
    iter ≤ (prepare look P fuel max iter).2 ∧ (prepare look P fuel max iter).2 ≤ P ∧
      (prepare look P fuel max iter).1 =
        (List.range' iter ((prepare look P fuel max iter).2 - iter)).filterMap look ∧
      (prepare look P fuel max iter).1.length ≤ max ∧
      ((prepare look P fuel max iter).2 = P ∨ (prepare look P fuel max iter).1.length = max)
  | 0, max, iter, h => by
    unfold prepare
    simp only [Nat.sub_self]
    refine ⟨by omega, by omega, rfl, by simp, Or.inl (by omega)⟩
  | fuel + 1, max, iter, h => by
    unfold prepare
    by_cases c : iter < P ∧ 0 < max
    · rw [if_pos c]
      cases hl : look iter with
      | none =>
        simp only
        obtain ⟨h1, h2, h3, h4, h5⟩ := prepare_spec look P fuel max (iter + 1) (by omega)
        refine ⟨by omega, h2, ?_, h4, h5⟩
        generalize hr : prepare look P fuel max (iter + 1) = r at *
        obtain ⟨d, hd⟩ : ∃ d, r.2 - iter = d + 1 := ⟨r.2 - iter - 1, by omega⟩
        rw [h3, hd, List.range'_succ, List.filterMap_cons_none hl, show r.2 - (iter + 1) = d by omega]
      | some x =>
        simp only
        obtain ⟨h1, h2, h3, h4, h5⟩ := prepare_spec look P fuel (max - 1) (iter + 1) (by omega)
        refine ⟨by omega, h2, ?_, ?_, ?_⟩
        · generalize hr : prepare look P fuel (max - 1) (iter + 1) = r at *
          obtain ⟨d, hd⟩ : ∃ d, r.2 - iter = d + 1 := ⟨r.2 - iter - 1, by omega⟩
          rw [hd, List.range'_succ, List.filterMap_cons_some hl, h3,
            show r.2 - (iter + 1) = d by omega]
        · rw [List.length_cons]; omega
        · rw [List.length_cons]; omega
    · rw [if_neg c]
      simp only [Nat.sub_self]
      refine ⟨by omega, by omega, rfl, by simp, Or.inr ?_⟩
      show 0 = max
      omega

theorem calls_spec (look : Nat → Option Nat) (P : Nat) : ∀ (maxs : List Nat) (iter : Nat), iter ≤ P →
    iter ≤ (calls look P maxs iter).2 ∧ (calls look P maxs iter).2 ≤ P ∧
      (calls look P maxs iter).1.flatten =
        (List.range' iter ((calls look P maxs iter).2 - iter)).filterMap look ∧
      (∀ (i : Nat) (xs : List Nat), (calls look P maxs iter).1[i]? = some xs → ∃ m, maxs[i]? = some m ∧ xs.length ≤ m) ∧
      ((∀ m ∈ maxs, 0 < m) → P < iter + maxs.length → (calls look P maxs iter).2 = P)
  | [], iter, h => by
    unfold calls
    simp only [Nat.sub_self]
    refine ⟨Nat.le_refl _, h, rfl, by simp, ?_⟩
    intro _ hl; simp at hl; omega
  | m :: r, iter, h => by
    have hp := prepare_spec look P (P - iter) m iter (by omega)
    have hx : prepareFlush look P m iter = prepare look P (P - iter) m iter := rfl
    rw [← hx] at hp
    unfold calls
    generalize hX : prepareFlush look P m iter = x at *
    obtain ⟨h1, h2, h3, h4, h5⟩ := hp
    simp only
    by_cases c : x.2 = P
    · rw [if_pos c]
      simp only [List.flatten_cons, List.flatten_nil, List.append_nil]
      refine ⟨h1, h2, h3, ?_, fun _ _ => c⟩
      intro i xs hi
      cases i with
      | zero => simp at hi; subst hi; exact ⟨m, rfl, h4⟩
      | succ i => simp at hi
    · rw [if_neg c]
      obtain ⟨g1, g2, g3, g4, g5⟩ := calls_spec look P r x.2 h2
      generalize calls look P r x.2 = y at *
      simp only [List.flatten_cons]
      refine ⟨by omega, g2, ?_, ?_, ?_⟩
      · rw [h3, g3, ← List.filterMap_append]
        congr 1
        have := List.range'_append_1 (s := iter) (m := x.2 - iter) (n := y.2 - x.2)
        rw [show iter + (x.2 - iter) = x.2 by omega, show x.2 - iter + (y.2 - x.2) = y.2 - iter by omega]
          at this
        exact this
      · intro i xs hi
        cases i with
        | zero => simp at hi; subst hi; exact ⟨m, rfl, h4⟩
        | succ i =>
          simp only [List.getElem?_cons_succ] at hi ⊢
          exact g4 i xs hi
      · intro hpos hl
        have hm := hpos m (by simp)
        have hlen : x.1.length = m := by rcases h5 with h | h; exact absurd h c; exact h
        have hle : x.1.length ≤ x.2 - iter := by
          rw [h3]
          refine Nat.le_trans (List.length_filterMap_le _ _) (by simp)
        simp only [List.length_cons] at hl
        exact g5 (fun z hz => hpos z (by simp [hz])) (by omega)

theorem trylock_some {l : Lines} (inj : ∀ c d x, l.at_ c = some x → l.at_ d = some x → c = d)
    {free : Nat → Bool} {core cl c : Nat} :
    trylock l free core cl = some c ↔
      c < l.n ∧ l.at_ c = some (core, cl) ∧ l.dirty c = true ∧ free c = true := by
  unfold trylock
  rw [Option.filter_eq_some_iff]
  simp only [Bool.and_eq_true]
  constructor
  · rintro ⟨h1, h2⟩
    exact ⟨List.mem_range.1 (List.mem_of_find?_eq_some h1), by simpa using List.find?_some h1, h2⟩
  · rintro ⟨h1, h2, h3⟩
    refine ⟨?_, h3⟩
    cases hf : (List.range l.n).find? fun c => l.at_ c == some (core, cl) with
    | none =>
      rw [List.find?_eq_none] at hf
      have := hf c (List.mem_range.2 h1)
      rw [h2] at this; simp at this
    | some d =>
      have hd : l.at_ d = some (core, cl) := by simpa using List.find?_some hf
      rw [inj d c _ hd h2]

/-! ## A load after a clean shutdown -/

/-- Purging lines whose flags are set while the counter is at `65536 - j` and the bucket at `j`. -/
theorem purge_up {a : Ctx} (hv : ValidLs a.ls) {k : Key} {c j : Nat} (hf : a.flag c = true)
    (hj : j < 10) (hb : (a.chunk k).bucket = j) (hnum : (a.chunk k).num = (2 ^ 16 - j) % 2 ^ 16) :
    ∃ a', purge a k c = some a' ∧ a'.ls = a.ls ∧ (a'.chunk k).bucket = j + 1 ∧
      (a'.chunk k).num = (2 ^ 16 - (j + 1)) % 2 ^ 16 ∧ ∀ d, d ≠ c → a'.flag d = a.flag d := by
  have hp := perChunk_facts hv
  have ht : threshold a.ls j ≤ perChunk a.ls := by
    rw [thr_eq hv (by omega)]
    have : j * (perChunk a.ls / 10) ≤ 10 * (perChunk a.ls / 10) := Nat.mul_le_mul_right _ (by omega)
    omega
  have hp' : perChunk a.ls ≤ 25600 := by
    rcases validLs_cases hv with h | h | h | h | h <;> rw [h] <;> decide
  have hd : dec16 (a.chunk k).num = (2 ^ 16 - (j + 1)) % 2 ^ 16 := by
    rw [hnum]; unfold dec16; omega
  unfold purge
  rw [hf]
  simp only [↓reduceIte]
  unfold updateBucket
  simp only [updK_same, hb, hd]
  rw [if_pos (by omega), if_neg (by unfold maxBuckets; omega)]
  refine ⟨_, rfl, rfl, ?_, ?_, ?_⟩
  · simp only [updK_same]
  · simp only [updK_same]
  · intro d hd; exact upd_ne hd

/-- The next purge in the last bucket fails. -/
theorem purge_bug {a : Ctx} (hv : ValidLs a.ls) {k : Key} {c : Nat} (hf : a.flag c = true)
    (hb : (a.chunk k).bucket = 10) (hnum : (a.chunk k).num = (2 ^ 16 - 10) % 2 ^ 16) :
    purge a k c = none := by
  have hp := perChunk_facts hv
  have ht : threshold a.ls 10 ≤ perChunk a.ls := by rw [thr_eq hv (by omega)]; omega
  have hp' : perChunk a.ls ≤ 25600 := by
    rcases validLs_cases hv with h | h | h | h | h <;> rw [h] <;> decide
  have hd : dec16 (a.chunk k).num = 2 ^ 16 - 11 := by rw [hnum]; unfold dec16; omega
  unfold purge
  rw [hf]
  simp only [↓reduceIte]
  unfold updateBucket
  simp only [updK_same, hb, hd]
  rw [if_pos (by omega), if_pos (by rfl)]

/-- Lines purged one after another. -/
def purges (k : Key) : Ctx → List Nat → Option Ctx
  | a, [] => some a
  | a, c :: r => (purge a k c).bind fun a => purges k a r

theorem purges_bug (k : Key) : ∀ (cs : List Nat) (a : Ctx) (j : Nat), ValidLs a.ls → j ≤ 10 →
    (a.chunk k).bucket = j → (a.chunk k).num = (2 ^ 16 - j) % 2 ^ 16 → cs.Nodup →
    (∀ c ∈ cs, a.flag c = true) → 11 ≤ j + cs.length → purges k a cs = none
  | [], _, _, _, _, _, _, _, _, h => by simp at h; omega
  | c :: r, a, j, hv, hj, hb, hnum, hn, hf, hl => by
    unfold purges
    by_cases e : j = 10
    · subst e; rw [purge_bug hv (hf c (by simp)) hb hnum]; rfl
    · obtain ⟨a', ea, els, eb, en, ef⟩ := purge_up hv (hf c (by simp)) (by omega) hb hnum
      rw [ea, Option.bind_some]
      rw [List.nodup_cons] at hn
      refine purges_bug k r a' (j + 1) (by rw [els]; exact hv) (by omega) eb en hn.2 ?_
        (by simp only [List.length_cons] at hl; omega)
      intro d hd
      rw [ef d (fun e => hn.1 (e ▸ hd))]
      exact hf d (by simp [hd])

/-! ## A failed allocation -/

theorem loadLoop_fail {alloc : Nat → Bool} : ∀ {rest : Cores} {a : Ctx} {cores : Cores}, Wf a →
    TabOk a cores → ((cores ++ rest).map Prod.fst).Nodup → (∃ x ∈ rest, alloc x.1 = false) →
    ∃ a' core, loadLoop alloc a rest = some (a', false) ∧ a'.tab core = none ∧
      core ∈ (cores ++ rest).map Prod.fst
  | [], _, _, _, _, _, h => by obtain ⟨x, hx, _⟩ := h; simp at hx
  | (core, size) :: r, a, cores, w, t, hn, h => by
    have hnot : ∀ s, (core, s) ∉ cores := by
      intro s hs
      rw [List.map_append, List.nodup_append] at hn
      exact hn.2.2 core (List.mem_map_of_mem (f := Prod.fst) hs) core (by simp) rfl
    have hnone : a.tab core = none := by
      cases ht : a.tab core with
      | none => rfl
      | some m =>
        obtain ⟨s, hs, _⟩ := (t.tab core m).1 ht
        exact absurd hs (hnot s)
    unfold loadLoop
    rw [if_neg (by rw [hnone]; simp)]
    cases ha : alloc core with
    | false => exact ⟨a, core, by simp, hnone, by simp⟩
    | true =>
      obtain ⟨a', e, w', t', _⟩ := addCore_ok w t size hnot
      simp only [↓reduceIte]
      rw [e, Option.bind_some]
      obtain ⟨a2, c2, e2, h2, h3⟩ := loadLoop_fail (alloc := alloc) (rest := r) w' t'
        (by simpa using hn) (by
          obtain ⟨x, hx, hxa⟩ := h
          rcases List.mem_cons.1 hx with e | hx
          · rw [e] at hxa; simp only at hxa; rw [ha] at hxa; cases hxa
          · exact ⟨x, hx, hxa⟩)
      exact ⟨a2, c2, e2, h2, by simpa using h3⟩

theorem removeCores_bug : ∀ {rest : Cores} {a : Ctx} {core : Nat}, a.tab core = none →
    core ∈ rest.map Prod.fst → removeCores a rest = none
  | [], _, _, _, h => by simp at h
  | (c, s) :: r, a, core, ht, h => by
    unfold removeCores
    by_cases e : c = core
    · subst e; unfold removeCore; rw [ht]; rfl
    · have hr : core ∈ r.map Prod.fst := by
        rcases List.mem_cons.1 h with h | h
        · exact absurd h.symm e
        · exact h
      cases hx : removeCore a c with
      | none => rfl
      | some a' =>
        rw [Option.bind_some]
        refine removeCores_bug ?_ hr
        unfold removeCore at hx
        split at hx
        · cases hx
        · split at hx
          · cases hx
          · cases hx
            show upd a.tab c none core = none
            rw [upd_ne (Ne.symm e)]; exact ht

end Verif.Acp
