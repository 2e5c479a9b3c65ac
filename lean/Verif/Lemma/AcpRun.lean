import Verif.Lemma.Acp

/-! The invariant of the ACP cleaning policy and the operations that keep it. -/

namespace Verif.Acp

open Verif.Collision (upd upd_same upd_ne)

/-- The chunk has a record. -/
def Present (a : Ctx) (k : Key) : Prop := ∃ m, a.tab k.1 = some m ∧ k.2 < m

/-- Counters and buckets are in order. -/
structure CtxOk (a : Ctx) (l : Lines) (touched : Key → Bool) : Prop where
  wf : Wf a
  num : ∀ k, Present a k → (a.chunk k).num = flagged a.ls l a.flag k
  exact : ∀ k, Present a k → touched k = true →
    Exact (perChunk a.ls / 10) (a.chunk k).bucket (a.chunk k).num
  low : ∀ k, Present a k → touched k = false →
    Low (perChunk a.ls / 10) (a.chunk k).bucket (a.chunk k).num

/-- What `_acp_update_bucket` is given by its two callers. -/
theorem change_ok {a : Ctx} {l : Lines} {touched : Key → Bool} (hv : ValidLs a.ls)
    (inj : ∀ c d x, l.at_ c = some x → l.at_ d = some x → c = d) (h : CtxOk a l touched) {k : Key}
    {c : Nat} (hk : chunkOf a.ls l c = some k) (hp : Present a k) {f : Nat → Bool}
    {num : Nat} (hf : f = upd a.flag c (f c))
    (hn : num = flagged a.ls l f k) (h1 : num ≤ (a.chunk k).num + 1) (h2 : (a.chunk k).num ≤ num + 1) :
    ∃ a', updateBucket
        { a with flag := f, chunk := updK a.chunk k { a.chunk k with num := num } } k = some a' ∧
      a'.ls = a.ls ∧ a'.tab = a.tab ∧ a'.total = a.total ∧ a'.flag = f ∧
      CtxOk a' l (updK touched k true) ∧ ∀ j, (a'.chunk j).ts = (a.chunk j).ts := by
  obtain ⟨m, hm, hlt⟩ := hp
  have hL : num ≤ perChunk a.ls := by rw [hn]; exact flagged_le hv inj f k
  have hnum := h.num k ⟨m, hm, hlt⟩
  have hL0 : (a.chunk k).num ≤ perChunk a.ls := by rw [hnum]; exact flagged_le hv inj _ k
  have hb : Exact (perChunk a.ls / 10) (a.chunk k).bucket (a.chunk k).num ∨
      Low (perChunk a.ls / 10) (a.chunk k).bucket (a.chunk k).num := by
    cases ht : touched k with
    | true => exact Or.inl (h.exact k ⟨m, hm, hlt⟩ ht)
    | false => exact Or.inr (h.low k ⟨m, hm, hlt⟩ ht)
  have hw := num_wf h.wf k num f
  obtain ⟨a', e, els, etab, etot, ef, w', hne, hnk, hts, hE⟩ :=
    updateBucket_spec
      (a := { a with flag := f, chunk := updK a.chunk k { a.chunk k with num := num } }) hv hw hm hlt (num0 := (a.chunk k).num)
      (by simp only [updK_same]; exact hb) (by simp only [updK_same]; exact h1)
      (by simp only [updK_same]; exact h2) (by simp only [updK_same]; exact hL) hL0
  simp only [updK_same] at hnk hts hE
  refine ⟨a', e, els, etab, etot, ef, ⟨w', ?_, ?_, ?_⟩, ?_⟩
  · rintro j ⟨m', hm', hj⟩
    rw [els, ef]
    by_cases e : j = k
    · subst e; rw [hnk, hn]
    · rw [hne j e]
      simp only [updK_ne e]
      rw [h.num j ⟨m', by rw [← hm', etab], hj⟩, hf]
      exact (flagged_other _ (by rw [hk]; simpa using Ne.symm e)).symm
  · rintro j ⟨m', hm', hj⟩ ht
    rw [els]
    by_cases e : j = k
    · subst e; rw [hnk]; exact hE
    · rw [hne j e]
      simp only [updK_ne e]
      exact h.exact j ⟨m', by rw [← hm', etab], hj⟩ (by rw [updK_ne e] at ht; exact ht)
  · rintro j ⟨m', hm', hj⟩ ht
    rw [els]
    by_cases e : j = k
    · subst e; rw [updK_same] at ht; cases ht
    · rw [hne j e]
      simp only [updK_ne e]
      exact h.low j ⟨m', by rw [← hm', etab], hj⟩ (by rw [updK_ne e] at ht; exact ht)
  · intro j
    by_cases e : j = k
    · subst e; rw [hts]
    · rw [hne j e]; simp only [updK_ne e]

theorem upd_self {f : Nat → Bool} {c : Nat} {v : Bool} (h : f c = v) : upd f c v = f := by
  funext d
  by_cases e : d = c
  · subst e; rw [upd_same, h]
  · rw [upd_ne e]

theorem ctx_eta (a : Ctx) (k : Key) :
    ({ a with flag := a.flag, chunk := updK a.chunk k { a.chunk k with num := (a.chunk k).num } } : Ctx)
      = a := by
  have : updK a.chunk k (a.chunk k) = a.chunk := by
    funext j
    by_cases e : j = k
    · subst e; rw [updK_same]
    · rw [updK_ne e]
  show Ctx.mk a.ls a.tab a.total (updK a.chunk k (a.chunk k)) a.list a.flag = a
  rw [this]

theorem setHot_ok {a : Ctx} {l : Lines} {touched : Key → Bool} (hv : ValidLs a.ls)
    (inj : ∀ c d x, l.at_ c = some x → l.at_ d = some x → c = d) (h : CtxOk a l touched) {k : Key}
    {c : Nat} (hc : c < l.n) (hk : chunkOf a.ls l c = some k) (hp : Present a k) :
    ∃ a', setHot a k c = some a' ∧
      a'.ls = a.ls ∧ a'.tab = a.tab ∧ a'.total = a.total ∧ a'.flag = upd a.flag c true ∧
      CtxOk a' l (updK touched k true) ∧ ∀ j, (a'.chunk j).ts = (a.chunk j).ts := by
  have hnum := h.num k hp
  unfold setHot
  cases hf : a.flag c with
  | true =>
    simp only [↓reduceIte]
    have := change_ok hv inj h hk hp (f := a.flag) (num := (a.chunk k).num)
      (upd_self rfl).symm hnum (by omega) (by omega)
    rw [ctx_eta] at this
    rw [upd_self hf]
    exact this
  | false =>
    simp only [Bool.false_eq_true, ↓reduceIte]
    have hs := flagged_set (flag := a.flag) hc hk hf
    have hle := flagged_le hv inj (upd a.flag c true) k
    have hpc := perChunk_facts hv
    have hi : inc16 (a.chunk k).num = (a.chunk k).num + 1 := by
      unfold inc16; rw [Nat.mod_eq_of_lt]; omega
    exact change_ok hv inj h hk hp (f := upd a.flag c true) (num := inc16 (a.chunk k).num)
      (by rw [upd_same]) (by rw [hi]; omega) (by omega) (by omega)

theorem purge_ok {a : Ctx} {l : Lines} {touched : Key → Bool} (hv : ValidLs a.ls)
    (inj : ∀ c d x, l.at_ c = some x → l.at_ d = some x → c = d) (h : CtxOk a l touched) {k : Key}
    {c : Nat} (hc : c < l.n) (hk : chunkOf a.ls l c = some k) (hp : Present a k) :
    ∃ a', purge a k c = some a' ∧
      a'.ls = a.ls ∧ a'.tab = a.tab ∧ a'.total = a.total ∧ a'.flag = upd a.flag c false ∧
      CtxOk a' l (updK touched k true) ∧ ∀ j, (a'.chunk j).ts = (a.chunk j).ts := by
  have hnum := h.num k hp
  unfold purge
  cases hf : a.flag c with
  | false =>
    simp only [Bool.false_eq_true, ↓reduceIte]
    have := change_ok hv inj h hk hp (f := a.flag) (num := (a.chunk k).num)
      (upd_self rfl).symm hnum (by omega) (by omega)
    rw [ctx_eta] at this
    rw [upd_self hf]
    exact this
  | true =>
    simp only [↓reduceIte]
    have hs := flagged_clear (flag := a.flag) hc hk hf
    have hle := flagged_le hv inj a.flag k
    have hpc := perChunk_facts hv
    have hi : dec16 (a.chunk k).num = (a.chunk k).num - 1 := by
      unfold dec16
      have : (a.chunk k).num + (2 ^ 16 - 1) = ((a.chunk k).num - 1) + 2 ^ 16 := by omega
      rw [this, Nat.add_mod_right, Nat.mod_eq_of_lt]; omega
    exact change_ok hv inj h hk hp (f := upd a.flag c false) (num := dec16 (a.chunk k).num)
      (by rw [upd_same]) (by rw [hi]; omega) (by omega) (by omega)

/-! ## Cores -/

/-- The tables belong to the cores of the cache. -/
structure TabOk (a : Ctx) (cores : Cores) : Prop where
  nodup : (cores.map Prod.fst).Nodup
  tab : ∀ core m, a.tab core = some m ↔ ∃ size, (core, size) ∈ cores ∧ m = numChunks size
  total : a.total = (cores.map fun x => numChunks x.2).sum

theorem mem_keys {core m : Nat} {k : Key} : k ∈ keys core m ↔ k.1 = core ∧ k.2 < m := by
  unfold keys
  rw [List.mem_map]
  constructor
  · rintro ⟨i, hi, rfl⟩; exact ⟨rfl, List.mem_range.1 hi⟩
  · rintro ⟨rfl, h⟩; exact ⟨k.2, List.mem_range.2 h, rfl⟩

theorem keys_nodup (core m : Nat) : (keys core m).Nodup := by
  unfold keys
  refine List.Nodup.map_on ?_ List.nodup_range
  intro x _ y _ e
  exact (Prod.mk.inj e).2

theorem addCore_ok {a : Ctx} {cores : Cores} (w : Wf a) (t : TabOk a cores) {core : Nat} (size : Nat)
    (hn : ∀ size, (core, size) ∉ cores) :
    ∃ a', addCore a core size = some a' ∧ Wf a' ∧ TabOk a' (cores ++ [(core, size)]) ∧
      a'.ls = a.ls ∧ a'.flag = a.flag ∧ (∀ k, k.1 = core → a'.chunk k = ⟨0, 0, 0⟩) ∧
      (∀ k, k.1 ≠ core → a'.chunk k = a.chunk k) ∧
      (∀ k, k.1 ≠ core → (Present a' k ↔ Present a k)) := by
  have hnone : a.tab core = none := by
    cases ht : a.tab core with
    | none => rfl
    | some m =>
      obtain ⟨s, hs, _⟩ := (t.tab core m).1 ht
      exact absurd hs (hn s)
  obtain ⟨m0, hm0⟩ : ∃ m, m = numChunks size := ⟨_, rfl⟩
  unfold addCore
  rw [if_neg (by rw [hnone]; simp), ← hm0]
  refine ⟨_, rfl, ⟨?_, ?_⟩, ⟨?_, ?_, ?_⟩, rfl, rfl, ?_, ?_, ?_⟩
  · intro b k
    show k ∈ upd a.list 0 ((keys core (m0)).reverse ++ a.list 0) b ↔
      (∃ m, upd a.tab core (some (m0)) k.1 = some m ∧ k.2 < m) ∧
        (if k.1 = core then (⟨0, 0, 0⟩ : Chunk) else a.chunk k).bucket = b
    have hw := w.mem b k
    have hw0 := w.mem 0 k
    by_cases hc : k.1 = core
    · rw [if_pos hc, hc, upd_same]
      have h0 : ∀ b, k ∉ a.list b := by
        intro b hb
        obtain ⟨⟨m, hm, _⟩, _⟩ := (w.mem b k).1 hb
        rw [hc, hnone] at hm; cases hm
      by_cases hb : b = 0
      · subst hb
        rw [upd_same, List.mem_append, List.mem_reverse, mem_keys]
        have := h0 0
        simp [this, hc]
      · rw [upd_ne hb]
        have := h0 b
        simp [this, Ne.symm hb]
    · rw [if_neg hc, upd_ne hc]
      by_cases hb : b = 0
      · subst hb
        rw [upd_same, List.mem_append, List.mem_reverse, mem_keys]
        simp only [hc, false_and, false_or]
        exact hw
      · rw [upd_ne hb]; exact hw
  · intro b
    show (upd a.list 0 ((keys core (m0)).reverse ++ a.list 0) b).Nodup
    by_cases hb : b = 0
    · subst hb
      rw [upd_same, List.nodup_append]
      refine ⟨List.nodup_reverse.2 (keys_nodup _ _), w.nodup 0, ?_⟩
      intro x hx y hy e
      rw [List.mem_reverse, mem_keys] at hx
      obtain ⟨⟨m, hm, _⟩, _⟩ := (w.mem 0 y).1 hy
      rw [← e, hx.1, hnone] at hm; cases hm
    · rw [upd_ne hb]; exact w.nodup b
  · rw [List.map_append, List.nodup_append]
    refine ⟨t.nodup, by simp, ?_⟩
    intro x hx y hy
    obtain ⟨⟨c, s⟩, hz, rfl⟩ := List.mem_map.1 hx
    simp at hy
    rw [hy]
    intro e
    simp only at e
    rw [e] at hz
    exact hn s hz
  · intro c m
    show upd a.tab core (some (m0)) c = some m ↔ _
    by_cases e : c = core
    · subst e
      rw [upd_same]
      constructor
      · intro h; exact ⟨size, by simp, by rw [← hm0]; exact (Option.some.inj h).symm⟩
      · rintro ⟨s, hs, rfl⟩
        rcases List.mem_append.1 hs with h | h
        · exact absurd h (hn s)
        · simp at h; rw [h, hm0]
    · rw [upd_ne e, t.tab]
      simp [e]
  · show a.total + m0 = _
    rw [List.map_append, List.sum_append, t.total, hm0, List.map_singleton, List.sum_singleton]
  · intro k hk; exact if_pos hk
  · intro k hk; exact if_neg hk
  · intro k hk
    unfold Present
    show (∃ m, upd a.tab core (some (m0)) k.1 = some m ∧ k.2 < m) ↔ _
    rw [upd_ne hk]

theorem foldl_erase {ks : List Key} : ∀ {xs : List Key}, xs.Nodup →
    (ks.foldl List.erase xs).Nodup ∧ ∀ k, k ∈ ks.foldl List.erase xs ↔ k ∈ xs ∧ k ∉ ks := by
  induction ks with
  | nil => intro xs h; exact ⟨h, fun k => by simp⟩
  | cons x ks ih =>
    intro xs h
    obtain ⟨h1, h2⟩ := ih (h.erase x)
    refine ⟨h1, fun k => ?_⟩
    rw [List.foldl_cons, h2, h.mem_erase_iff]
    simp only [List.mem_cons, not_or]
    grind

theorem sum_filter_core {core size : Nat} : ∀ {cores : Cores}, (cores.map Prod.fst).Nodup →
    (core, size) ∈ cores →
    ((cores.filter fun x => x.1 ≠ core).map fun x => numChunks x.2).sum + numChunks size =
      (cores.map fun x => numChunks x.2).sum
  | [], _, h => by simp at h
  | (c, s) :: r, hn, h => by
    simp only [List.map_cons, List.nodup_cons] at hn
    rcases List.mem_cons.1 h with e | h'
    · cases e
      have : (r.filter fun x => x.1 ≠ core) = r := by
        rw [List.filter_eq_self]
        intro x hx
        have : x.1 ≠ core := fun e => hn.1 (e ▸ List.mem_map_of_mem hx)
        simpa using this
      rw [List.filter_cons_of_neg (by simp), this]
      simp; omega
    · have hc : c ≠ core := fun e => hn.1 (e ▸ List.mem_map_of_mem (f := Prod.fst) h')
      rw [List.filter_cons_of_pos (by simpa using hc)]
      have := sum_filter_core hn.2 h'
      simp only [List.map_cons, List.sum_cons]
      omega

theorem removeCore_ok {a : Ctx} {cores : Cores} (w : Wf a) (t : TabOk a cores) {core size : Nat}
    (hm : (core, size) ∈ cores) :
    ∃ a', removeCore a core = some a' ∧ Wf a' ∧ TabOk a' (cores.filter fun x => x.1 ≠ core) ∧
      a'.ls = a.ls ∧ a'.flag = a.flag ∧ a'.chunk = a.chunk ∧
      (∀ k, Present a' k → k.1 ≠ core ∧ Present a k) := by
  have ht : a.tab core = some (numChunks size) := (t.tab _ _).2 ⟨size, hm, rfl⟩
  have hs := sum_filter_core t.nodup hm
  unfold removeCore
  rw [ht]
  simp only
  rw [if_neg (by rw [t.total]; omega)]
  refine ⟨_, rfl, ⟨?_, ?_⟩, ⟨?_, ?_, ?_⟩, rfl, rfl, rfl, ?_⟩
  · intro b k
    show k ∈ (keys core (numChunks size)).foldl List.erase (a.list b) ↔
      (∃ m, upd a.tab core none k.1 = some m ∧ k.2 < m) ∧ (a.chunk k).bucket = b
    rw [(foldl_erase (w.nodup b)).2, w.mem, mem_keys]
    by_cases hc : k.1 = core
    · rw [hc, upd_same, ht]; simp; omega
    · rw [upd_ne hc]; simp [hc]
  · intro b; exact (foldl_erase (w.nodup b)).1
  · exact t.nodup.sublist (List.filter_sublist.map _)
  · intro c m
    show upd a.tab core none c = some m ↔ _
    by_cases e : c = core
    · subst e
      rw [upd_same]
      simp
    · rw [upd_ne e, t.tab]
      simp [e]
  · show a.total - numChunks size = _
    rw [t.total]; omega
  · rintro k ⟨m, hm, hk⟩
    have hm : upd a.tab core none k.1 = some m := hm
    by_cases hc : k.1 = core
    · rw [hc, upd_same] at hm; cases hm
    · rw [upd_ne hc] at hm; exact ⟨hc, m, hm, hk⟩

/-! ## Starting the policy -/

theorem empty_wf (ls : Nat) (flag : Nat → Bool) : Wf (emptyCtx ls flag) :=
  ⟨fun b k => by simp [emptyCtx], fun b => List.nodup_nil⟩

theorem empty_tab (ls : Nat) (flag : Nat → Bool) : TabOk (emptyCtx ls flag) [] :=
  ⟨List.nodup_nil, fun c m => by simp [emptyCtx], rfl⟩

theorem loadLoop_ok : ∀ {rest : Cores} {a : Ctx} {cores : Cores}, Wf a → TabOk a cores →
    ((cores ++ rest).map Prod.fst).Nodup → (∀ k, Present a k → a.chunk k = ⟨0, 0, 0⟩) →
    ∃ a', loadLoop (fun _ => true) a rest = some (a', true) ∧ Wf a' ∧ TabOk a' (cores ++ rest) ∧
      a'.ls = a.ls ∧ a'.flag = a.flag ∧ ∀ k, Present a' k → a'.chunk k = ⟨0, 0, 0⟩
  | [], a, cores, w, t, _, hz => ⟨a, rfl, w, by rw [List.append_nil]; exact t, rfl, rfl, hz⟩
  | (core, size) :: r, a, cores, w, t, hn, hz => by
    have hnot : ∀ s, (core, s) ∉ cores := by
      intro s hs
      rw [List.map_append, List.nodup_append] at hn
      exact hn.2.2 core (List.mem_map_of_mem (f := Prod.fst) hs) core (by simp) rfl
    obtain ⟨a', e, w', t', els, ef, hc, hc', hp⟩ := addCore_ok w t size hnot
    have hz' : ∀ k, Present a' k → a'.chunk k = ⟨0, 0, 0⟩ := by
      intro k hk
      by_cases h : k.1 = core
      · exact hc k h
      · rw [hc' k h]; exact hz k ((hp k h).1 hk)
    obtain ⟨a2, e2, w2, t2, els2, ef2, hz2⟩ := loadLoop_ok (rest := r) w' t' (by simpa using hn) hz'
    have hnone : a.tab core = none := by
      cases ht : a.tab core with
      | none => rfl
      | some m =>
        obtain ⟨s, hs, _⟩ := (t.tab core m).1 ht
        exact absurd hs (hnot s)
    refine ⟨a2, ?_, w2, by simpa using t2, els2.trans els, ef2.trans ef, hz2⟩
    unfold loadLoop
    rw [if_neg (by rw [hnone]; simp), e]
    exact e2

theorem initCtx_ok {ls : Nat} {flag : Nat → Bool} {cores : Cores}
    (hn : (cores.map Prod.fst).Nodup) :
    ∃ a, initCtx (fun _ => true) ls flag cores = some (some a) ∧ Wf a ∧ TabOk a cores ∧ a.ls = ls ∧
      a.flag = flag ∧ ∀ k, Present a k → a.chunk k = ⟨0, 0, 0⟩ := by
  obtain ⟨a, e, w, t, els, ef, hz⟩ := loadLoop_ok (rest := cores) (empty_wf ls flag)
    (empty_tab ls flag) (by simpa using hn) (by rintro k ⟨m, hm, _⟩; simp [emptyCtx] at hm)
  refine ⟨a, ?_, w, by simpa using t, els, ef, hz⟩
  unfold initCtx
  rw [e]; rfl

end Verif.Acp
