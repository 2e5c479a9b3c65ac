import Verif.Lemma.AcpPop

/-! The operations keep the ACP cleaning policy in order. -/

namespace Verif.Acp

open Verif.Collision (upd upd_same upd_ne)

/-- Metadata, flags and buckets are in order. -/
structure Inv (st : State) : Prop where
  ls : ValidLs st.a.ls
  small : st.l.n ≤ 2 ^ 32 - 32
  lines : LinesOk st.a.ls st.l st.cores
  ctx : CtxOk st.a st.l st.touched
  tab : TabOk st.a st.cores
  idle : ∀ c, st.phase c = .idle → st.l.at_ c ≠ none → st.a.flag c = st.l.dirty c
  busy : ∀ c, st.phase c ≠ .idle → st.l.at_ c ≠ none
  hot : ∀ c, st.phase c = .hot → st.l.dirty c = true
  clean : ∀ c, st.phase c = .clean → st.l.dirty c = false
  sparse : ∀ c, st.phase c = .sparse → st.a.flag c = false

theorem chunk_lt {ls cl size : Nat} (h : cl * ls < size) : chunkId ls cl < numChunks size := by
  unfold chunkId numChunks
  have hc : 0 < chunkSize := by decide
  generalize cl * ls = x at *
  generalize chunkSize = y at *
  rw [Nat.div_lt_iff_lt_mul hc]
  have h1 := Nat.div_add_mod (size + y - 1) y
  have h2 := Nat.mod_lt (size + y - 1) hc
  rw [Nat.mul_comm] at h1
  omega

/-- A mapped line has a chunk with a record. -/
theorem Inv.present {st : State} (h : Inv st) {c : Nat} (hc : st.l.at_ c ≠ none) :
    ∃ k, chunkOf st.a.ls st.l c = some k ∧ Present st.a k := by
  cases ha : st.l.at_ c with
  | none => exact absurd ha hc
  | some x =>
    obtain ⟨core, cl⟩ := x
    obtain ⟨size, hs, hlt⟩ := h.lines.inside c core cl ha
    refine ⟨(core, chunkId st.a.ls cl), by unfold chunkOf; rw [ha]; rfl, numChunks size,
      (h.tab.tab _ _).2 ⟨size, hs, rfl⟩, chunk_lt hlt⟩

theorem tab_congr {a a' : Ctx} {cores : Cores} (t : TabOk a cores) (h1 : a'.tab = a.tab)
    (h2 : a'.total = a.total) : TabOk a' cores :=
  ⟨t.nodup, fun c m => by rw [h1]; exact t.tab c m, by rw [h2]; exact t.total⟩

theorem flagged_congr {ls : Nat} {l l' : Lines} {f f' : Nat → Bool} {k : Key} (hn : l'.n = l.n)
    (h : ∀ c, c < l.n → (f' c && (chunkOf ls l' c == some k)) = (f c && (chunkOf ls l c == some k))) :
    flagged ls l' f' k = flagged ls l f k := by
  unfold flagged
  rw [hn]
  exact countP_range_congr h

theorem CtxOk.dirty {a : Ctx} {l : Lines} {t : Key → Bool} (h : CtxOk a l t) (d : Nat → Bool) :
    CtxOk a { l with dirty := d } t :=
  ⟨h.wf, h.num, h.exact, h.low⟩

/-- The flag of a line that is not mapped, and the mapping of one without a flag, do not count. -/
theorem CtxOk.relines {a : Ctx} {l l' : Lines} {t : Key → Bool} (h : CtxOk a l t) {f : Nat → Bool}
    (hn : l'.n = l.n)
    (hc : ∀ c k, c < l.n → (f c && (chunkOf a.ls l' c == some k)) =
      (a.flag c && (chunkOf a.ls l c == some k))) :
    CtxOk { a with flag := f } l' t := by
  refine ⟨⟨h.wf.mem, h.wf.nodup⟩, fun k hk => ?_, h.exact, h.low⟩
  rw [show (({ a with flag := f } : Ctx).chunk k).num = (a.chunk k).num from rfl, h.num k hk]
  exact (flagged_congr hn fun c hlt => hc c k hlt).symm

theorem upd_phase {phase : Nat → Phase} {c d : Nat} {p q : Phase} (h : upd phase c p d = q) :
    (d = c ∧ p = q) ∨ (d ≠ c ∧ phase d = q) := by
  by_cases e : d = c
  · subst e; rw [upd_same] at h; exact Or.inl ⟨rfl, h⟩
  · rw [upd_ne e] at h; exact Or.inr ⟨e, h⟩

/-- `hot`, `purge`, `sparse` and `repart` change flag and phase of a line and the record of its
chunk. -/
theorem Inv.change {st : State} (h : Inv st) {c : Nat} {k : Key} {a' : Ctx} {v : Bool} {p : Phase}
    (els : a'.ls = st.a.ls) (etab : a'.tab = st.a.tab) (etot : a'.total = st.a.total)
    (ef : a'.flag = upd st.a.flag c v) (hctx : CtxOk a' st.l (updK st.touched k true))
    (hm : st.l.at_ c ≠ none)
    (h1 : p = .idle → v = st.l.dirty c) (h2 : p = .hot → st.l.dirty c = true)
    (h3 : p ≠ .clean) (h4 : p = .sparse → v = false) :
    Inv { st with a := a', phase := upd st.phase c p, touched := updK st.touched k true } := by
  constructor
  · show ValidLs a'.ls; rw [els]; exact h.ls
  · exact h.small
  · show LinesOk a'.ls _ _; rw [els]; exact h.lines
  · exact hctx
  · exact tab_congr h.tab etab etot
  · intro d hd hm'
    show a'.flag d = st.l.dirty d
    rw [ef]
    rcases upd_phase hd with ⟨rfl, e⟩ | ⟨e, e'⟩
    · rw [upd_same]; exact h1 e
    · rw [upd_ne e]; exact h.idle d e' hm'
  · intro d hd
    by_cases e : d = c
    · subst e; exact hm
    · refine h.busy d fun e' => hd ?_
      show upd st.phase c p d = .idle
      rw [upd_ne e]; exact e'
  · intro d hd
    rcases upd_phase hd with ⟨rfl, e⟩ | ⟨e, e'⟩
    · exact h2 e
    · exact h.hot d e'
  · intro d hd
    rcases upd_phase hd with ⟨rfl, e⟩ | ⟨e, e'⟩
    · exact absurd e h3
    · exact h.clean d e'
  · intro d hd
    show a'.flag d = false
    rw [ef]
    rcases upd_phase hd with ⟨rfl, e⟩ | ⟨e, e'⟩
    · rw [upd_same]; exact h4 e
    · rw [upd_ne e]; exact h.sparse d e'

/-- `markDirty` and `markClean` change the dirty bit and the phase. -/
theorem Inv.mark {st : State} (h : Inv st) {c : Nat} {v : Bool} {p : Phase}
    (hm : st.l.at_ c ≠ none) (h1 : p ≠ .idle) (h2 : p = .hot → v = true)
    (h3 : p = .clean → v = false) (h4 : p ≠ .sparse) :
    Inv { st with l := { st.l with dirty := upd st.l.dirty c v }, phase := upd st.phase c p } := by
  constructor
  · exact h.ls
  · exact h.small
  · refine ⟨h.lines.nodup, h.lines.out, h.lines.inj, h.lines.inside, ?_⟩
    intro d hd
    by_cases e : d = c
    · subst e; exact hm
    · refine h.lines.mapped d ?_
      have hd : upd st.l.dirty c v d = true := hd
      rw [upd_ne e] at hd; exact hd
  · exact h.ctx.dirty _
  · exact h.tab
  · intro d hd hm'
    show st.a.flag d = upd st.l.dirty c v d
    rcases upd_phase hd with ⟨rfl, e⟩ | ⟨e, e'⟩
    · exact absurd e h1
    · rw [upd_ne e]; exact h.idle d e' hm'
  · intro d hd
    by_cases e : d = c
    · subst e; exact hm
    · refine h.busy d fun e' => hd ?_
      show upd st.phase c p d = .idle
      rw [upd_ne e]; exact e'
  · intro d hd
    show upd st.l.dirty c v d = true
    rcases upd_phase hd with ⟨rfl, e⟩ | ⟨e, e'⟩
    · rw [upd_same]; exact h2 e
    · rw [upd_ne e]; exact h.hot d e'
  · intro d hd
    show upd st.l.dirty c v d = false
    rcases upd_phase hd with ⟨rfl, e⟩ | ⟨e, e'⟩
    · rw [upd_same]; exact h3 e
    · rw [upd_ne e]; exact h.clean d e'
  · intro d hd
    rcases upd_phase hd with ⟨rfl, e⟩ | ⟨e, e'⟩
    · exact absurd e h4
    · exact h.sparse d e'

/-- A line is taken out of the cache. -/
theorem Inv.drop {st : State} (h : Inv st) {c : Nat} {d : Nat → Bool} (hf : st.a.flag c = false)
    (hd : ∀ e, e ≠ c → d e = st.l.dirty e) (hdc : d c = false) :
    Inv { st with l := { st.l with dirty := d, at_ := upd st.l.at_ c none },
                  phase := upd st.phase c .idle } := by
  have hsub : ∀ e x, upd st.l.at_ c none e = some x → e ≠ c ∧ st.l.at_ e = some x := by
    intro e x he
    by_cases e' : e = c
    · subst e'; rw [upd_same] at he; cases he
    · rw [upd_ne e'] at he; exact ⟨e', he⟩
  have hmap : ∀ e, upd st.l.at_ c none e ≠ none → e ≠ c ∧ st.l.at_ e ≠ none := by
    intro e he
    by_cases e' : e = c
    · subst e'; rw [upd_same] at he; exact absurd rfl he
    · rw [upd_ne e'] at he; exact ⟨e', he⟩
  constructor
  · exact h.ls
  · exact h.small
  · refine ⟨h.lines.nodup, ?_, ?_, ?_, ?_⟩
    · intro e he
      show upd st.l.at_ c none e = none
      by_cases e' : e = c
      · subst e'; rw [upd_same]
      · rw [upd_ne e']; exact h.lines.out e he
    · intro x y z hx hy
      exact h.lines.inj x y z (hsub _ _ hx).2 (hsub _ _ hy).2
    · intro x core cl hx
      exact h.lines.inside x core cl (hsub _ _ hx).2
    · intro x hx
      show upd st.l.at_ c none x ≠ none
      by_cases e' : x = c
      · subst e'
        have hx : d x = true := hx
        rw [hdc] at hx; cases hx
      · rw [upd_ne e']
        have hx : d x = true := hx
        rw [hd x e'] at hx
        exact h.lines.mapped x hx
  · refine CtxOk.relines (l' := { st.l with dirty := d, at_ := upd st.l.at_ c none }) h.ctx
      (f := st.a.flag) rfl ?_
    intro x k _
    by_cases e' : x = c
    · subst e'; rw [hf]; rfl
    · unfold chunkOf
      show (st.a.flag x && ((upd st.l.at_ c none x).map _ == some k)) = _
      rw [upd_ne e']
  · exact h.tab
  · intro x hx hm
    obtain ⟨e', hm⟩ := hmap x hm
    show st.a.flag x = d x
    rw [hd x e']
    rcases upd_phase hx with ⟨rfl, _⟩ | ⟨_, hx⟩
    · exact absurd rfl e'
    · exact h.idle x hx hm
  · intro x hx
    show upd st.l.at_ c none x ≠ none
    by_cases e' : x = c
    · exact absurd (by rw [e']; exact upd_same _ _ _) hx
    · rw [upd_ne e']
      refine h.busy x fun e => hx ?_
      show upd st.phase c .idle x = .idle
      rw [upd_ne e']; exact e
  · intro x hx
    rcases upd_phase hx with ⟨_, e⟩ | ⟨e', hx⟩
    · cases e
    · show d x = true
      rw [hd x e']; exact h.hot x hx
  · intro x hx
    rcases upd_phase hx with ⟨_, e⟩ | ⟨e', hx⟩
    · cases e
    · show d x = false
      rw [hd x e']; exact h.clean x hx
  · intro x hx
    rcases upd_phase hx with ⟨_, e⟩ | ⟨e', hx⟩
    · cases e
    · exact h.sparse x hx

theorem Inv.map {st : State} (h : Inv st) {c core cl size : Nat} (hc : c < st.l.n)
    (hi : st.phase c = .idle) (hn : st.l.at_ c = none) (hx : ∀ d, st.l.at_ d ≠ some (core, cl))
    (hs : (core, size) ∈ st.cores) (hlt : cl * st.a.ls < size) :
    Inv { st with a := initBlock st.a c,
                  l := { st.l with at_ := upd st.l.at_ c (some (core, cl)) } } := by
  have hcd : st.l.dirty c = false := by
    cases hd : st.l.dirty c with
    | false => rfl
    | true => exact absurd hn (h.lines.mapped c hd)
  have hsub : ∀ e x, upd st.l.at_ c (some (core, cl)) e = some x →
      (e = c ∧ x = (core, cl)) ∨ (e ≠ c ∧ st.l.at_ e = some x) := by
    intro e x he
    by_cases e' : e = c
    · subst e'; rw [upd_same] at he; exact Or.inl ⟨rfl, (Option.some.inj he).symm⟩
    · rw [upd_ne e'] at he; exact Or.inr ⟨e', he⟩
  have hmap : ∀ e, st.l.at_ e ≠ none → upd st.l.at_ c (some (core, cl)) e ≠ none := by
    intro e he
    by_cases e' : e = c
    · subst e'; exact absurd hn he
    · rw [upd_ne e']; exact he
  constructor
  · exact h.ls
  · exact h.small
  · refine ⟨h.lines.nodup, ?_, ?_, ?_, ?_⟩
    · intro e he
      show upd st.l.at_ c (some (core, cl)) e = none
      have he : st.l.n ≤ e := he
      rw [upd_ne (by omega : e ≠ c)]; exact h.lines.out e he
    · intro x y z h1 h2
      rcases hsub _ _ h1 with ⟨rfl, rfl⟩ | ⟨_, h1'⟩ <;> rcases hsub _ _ h2 with ⟨rfl, e⟩ | ⟨_, h2'⟩
      · rfl
      · exact absurd h2' (hx y)
      · rw [e] at h1'; exact absurd h1' (hx x)
      · exact h.lines.inj x y z h1' h2'
    · intro x core' cl' h1
      rcases hsub _ _ h1 with ⟨_, e⟩ | ⟨_, h1⟩
      · cases e; exact ⟨size, hs, hlt⟩
      · exact h.lines.inside x core' cl' h1
    · intro x hx; exact hmap x (h.lines.mapped x hx)
  · refine CtxOk.relines (l' := { st.l with at_ := upd st.l.at_ c (some (core, cl)) }) h.ctx
      (f := upd st.a.flag c false) rfl ?_
    intro x k _
    by_cases e' : x = c
    · subst e'
      rw [upd_same]
      have : chunkOf st.a.ls st.l x = none := by unfold chunkOf; rw [hn]; rfl
      rw [this]; simp
    · unfold chunkOf
      show (upd st.a.flag c false x && ((upd st.l.at_ c (some (core, cl)) x).map _ == some k)) = _
      rw [upd_ne e', upd_ne e']
  · exact tab_congr h.tab rfl rfl
  · intro x hx hm
    show upd st.a.flag c false x = st.l.dirty x
    by_cases e' : x = c
    · subst e'; rw [upd_same, hcd]
    · rw [upd_ne e']
      have hm : upd st.l.at_ c (some (core, cl)) x ≠ none := hm
      rw [upd_ne e'] at hm
      exact h.idle x hx hm
  · intro x hx; exact hmap x (h.busy x hx)
  · exact h.hot
  · exact h.clean
  · intro x hx
    show upd st.a.flag c false x = false
    by_cases e' : x = c
    · subst e'; rw [upd_same]
    · rw [upd_ne e']; exact h.sparse x hx

theorem Inv.addCore {st : State} (h : Inv st) {core size : Nat}
    (hn : ∀ size, (core, size) ∉ st.cores) :
    ∃ a, addCore st.a core size = some a ∧
      Inv { st with a := a, cores := st.cores ++ [(core, size)],
                    touched := fun k => if k.1 = core then true else st.touched k } := by
  obtain ⟨a, e, w, t, els, ef, hz, hne, hp⟩ := addCore_ok h.ctx.wf h.tab size hn
  have hL : LinesOk st.a.ls st.l (st.cores ++ [(core, size)]) := by
    refine ⟨t.nodup, h.lines.out, h.lines.inj, ?_, h.lines.mapped⟩
    intro c core' cl hc
    obtain ⟨s, hs, hlt⟩ := h.lines.inside c core' cl hc
    exact ⟨s, List.mem_append_left _ hs, hlt⟩
  have hzero : ∀ k, k.1 = core → flagged st.a.ls st.l st.a.flag k = 0 := by
    intro k hk
    unfold flagged
    rw [List.countP_eq_zero]
    intro c _ hc
    simp only [Bool.and_eq_true, beq_iff_eq] at hc
    cases ha : st.l.at_ c with
    | none => unfold chunkOf at hc; rw [ha] at hc; simp at hc
    | some x =>
      obtain ⟨core', cl⟩ := x
      have h2 := hc.2
      unfold chunkOf at h2
      rw [ha] at h2
      simp only [Option.map_some, Option.some.injEq] at h2
      obtain ⟨s, hs, _⟩ := h.lines.inside c core' cl ha
      have : core' = core := by rw [← hk, ← h2]
      rw [this] at hs
      exact hn s hs
  refine ⟨a, e, ?_⟩
  constructor
  · show ValidLs a.ls; rw [els]; exact h.ls
  · exact h.small
  · show LinesOk a.ls _ _; rw [els]; exact hL
  · refine ⟨w, ?_, ?_, ?_⟩
    · intro k hk
      show (a.chunk k).num = flagged a.ls st.l a.flag k
      rw [els, ef]
      by_cases hc : k.1 = core
      · rw [hz k hc, hzero k hc]
      · rw [hne k hc]; exact h.ctx.num k ((hp k hc).1 hk)
    · intro k hk ht
      show Exact (perChunk a.ls / 10) _ _
      rw [els]
      by_cases hc : k.1 = core
      · rw [hz k hc]; exact ⟨Nat.zero_le _, Nat.zero_le _, Or.inl rfl⟩
      · rw [hne k hc]
        exact h.ctx.exact k ((hp k hc).1 hk) (by simpa [hc] using ht)
    · intro k hk ht
      show Low (perChunk a.ls / 10) _ _
      rw [els]
      by_cases hc : k.1 = core
      · simp [hc] at ht
      · rw [hne k hc]
        exact h.ctx.low k ((hp k hc).1 hk) (by simpa [hc] using ht)
  · exact t
  · intro c hc hm
    show a.flag c = _
    rw [ef]; exact h.idle c hc hm
  · exact h.busy
  · exact h.hot
  · exact h.clean
  · intro c hc
    show a.flag c = _
    rw [ef]; exact h.sparse c hc

theorem Inv.removeCore {st : State} (h : Inv st) {core size : Nat} (hs : (core, size) ∈ st.cores)
    (hn : ∀ c cl, st.l.at_ c ≠ some (core, cl)) :
    ∃ a, removeCore st.a core = some a ∧
      Inv { st with a := a, cores := st.cores.filter fun x => x.1 ≠ core } := by
  obtain ⟨a, e, w, t, els, ef, hz, hp⟩ := removeCore_ok h.ctx.wf h.tab hs
  refine ⟨a, e, ?_⟩
  constructor
  · show ValidLs a.ls; rw [els]; exact h.ls
  · exact h.small
  · show LinesOk a.ls _ _
    rw [els]
    refine ⟨t.nodup, h.lines.out, h.lines.inj, ?_, h.lines.mapped⟩
    intro c core' cl hc
    obtain ⟨s, hs, hlt⟩ := h.lines.inside c core' cl hc
    refine ⟨s, List.mem_filter.2 ⟨hs, ?_⟩, hlt⟩
    have : core' ≠ core := fun e => hn c cl (by rw [← e]; exact hc)
    simpa using this
  · refine ⟨w, ?_, ?_, ?_⟩
    · intro k hk
      show (a.chunk k).num = flagged a.ls st.l a.flag k
      rw [els, ef, hz]; exact h.ctx.num k (hp k hk).2
    · intro k hk ht
      show Exact (perChunk a.ls / 10) _ _
      rw [els, hz]; exact h.ctx.exact k (hp k hk).2 ht
    · intro k hk ht
      show Low (perChunk a.ls / 10) _ _
      rw [els, hz]; exact h.ctx.low k (hp k hk).2 ht
  · exact t
  · intro c hc hm
    show a.flag c = _
    rw [ef]; exact h.idle c hc hm
  · exact h.busy
  · exact h.hot
  · exact h.clean
  · intro c hc
    show a.flag c = _
    rw [ef]; exact h.sparse c hc

theorem Inv.error {st : State} (h : Inv st) (k : Key) (hz : Nat) :
    Inv { st with a := flushError st.a hz st.now k } := by
  have hb : ∀ j, ((flushError st.a hz st.now k).chunk j).bucket = (st.a.chunk j).bucket ∧
      ((flushError st.a hz st.now k).chunk j).num = (st.a.chunk j).num := by
    intro j
    unfold flushError
    by_cases e : j = k
    · subst e; simp only [updK_same, and_self]
    · simp only [updK_ne e, and_self]
  constructor
  · exact h.ls
  · exact h.small
  · exact h.lines
  · refine ⟨⟨?_, h.ctx.wf.nodup⟩, ?_, ?_, ?_⟩
    · intro b j
      rw [(hb j).1]; exact h.ctx.wf.mem b j
    · intro j hj; show ((flushError st.a hz st.now k).chunk j).num = _
      rw [(hb j).2]; exact h.ctx.num j hj
    · intro j hj ht
      show Exact _ ((flushError st.a hz st.now k).chunk j).bucket
        ((flushError st.a hz st.now k).chunk j).num
      rw [(hb j).1, (hb j).2]; exact h.ctx.exact j hj ht
    · intro j hj ht
      show Low _ ((flushError st.a hz st.now k).chunk j).bucket
        ((flushError st.a hz st.now k).chunk j).num
      rw [(hb j).1, (hb j).2]; exact h.ctx.low j hj ht
  · exact tab_congr h.tab rfl rfl
  · exact h.idle
  · exact h.busy
  · exact h.hot
  · exact h.clean
  · exact h.sparse

/-- The state after the policy was chosen. -/
theorem choose_inv {l : Lines} {cores : Cores} {ls : Nat} {flag : Nat → Bool} (hv : ValidLs ls)
    (hsm : l.n ≤ 2 ^ 32 - 32) (hL : LinesOk ls l cores) {phase : Nat → Phase}
    (hi : ∀ c, phase c = .idle) {sched : List (Nat × Nat)} (hs : Sched l.n shardsCnt sched)
    {touched : Key → Bool} (ht : ∀ k, touched k = false) (now : Nat) :
    ∃ a, initCtx (fun _ => true) ls flag cores = some (some a) ∧
      (populate a l cores sched).ls = ls ∧
      Inv { a := populate a l cores sched, l := l, phase := phase, cores := cores, now := now,
            touched := touched } := by
  obtain ⟨a, e, w, t, els, ef, hz⟩ := initCtx_ok (ls := ls) (flag := flag) hL.nodup
  subst els
  obtain ⟨h1, h2, h3, h4, h5⟩ := populate_ok hv hsm hL.inj w t hs touched ht
  refine ⟨a, e, h3, ?_⟩
  constructor
  · show ValidLs (populate a l cores sched).ls; rw [h3]; exact hv
  · exact hsm
  · show LinesOk (populate a l cores sched).ls _ _; rw [h3]; exact hL
  · exact h1
  · exact h2
  · intro c _ hm
    by_cases hc : c < l.n
    · exact h4 c hc hm
    · exact absurd (hL.out c (by omega)) hm
  · intro c hc; exact absurd (hi c) hc
  · intro c hc; have hc := (hi c).symm.trans hc; cases hc
  · intro c hc; have hc := (hi c).symm.trans hc; cases hc
  · intro c hc; have hc := (hi c).symm.trans hc; cases hc

/-- Every operation succeeds and keeps the invariant. -/
theorem Inv.exec {st : State} (h : Inv st) {op : Op} (g : guard st op) :
    ∃ st', exec st op = some st' ∧ Inv st' := by
  cases op with
  | markDirty c => exact ⟨_, rfl, h.mark g.2.2 (by simp) (fun _ => rfl) (by simp) (by simp)⟩
  | hot c =>
    have hd : st.l.at_ c ≠ none ∧ st.l.dirty c = true := by
      rcases g.2 with g' | g'
      · exact ⟨h.busy c (by rw [g']; simp), h.hot c g'⟩
      · exact g'.2
    obtain ⟨k, hk, hp⟩ := h.present hd.1
    obtain ⟨a', e, els, etab, etot, ef, hc, _⟩ := setHot_ok h.ls h.lines.inj h.ctx g.1 hk hp
    refine ⟨_, by show (chunkOf st.a.ls st.l c).bind _ = _; rw [hk, Option.bind_some, e]; rfl,
      h.change els etab etot ef hc hd.1 (fun _ => hd.2.symm) (by simp) (by simp) (by simp)⟩
  | markClean c =>
    exact ⟨_, rfl, h.mark (h.lines.mapped c g.2.2) (by simp) (by simp) (fun _ => rfl) (by simp)⟩
  | purge c =>
    have hm := h.busy c (by rw [g.2]; simp)
    obtain ⟨k, hk, hp⟩ := h.present hm
    obtain ⟨a', e, els, etab, etot, ef, hc, _⟩ := purge_ok h.ls h.lines.inj h.ctx g.1 hk hp
    refine ⟨_, by show (chunkOf st.a.ls st.l c).bind _ = _; rw [hk, Option.bind_some, e]; rfl,
      h.change els etab etot ef hc hm (fun _ => (h.clean c g.2).symm) (by simp) (by simp) (by simp)⟩
  | sparse c =>
    have hm := h.lines.mapped c g.2.2
    obtain ⟨k, hk, hp⟩ := h.present hm
    obtain ⟨a', e, els, etab, etot, ef, hc, _⟩ := purge_ok h.ls h.lines.inj h.ctx g.1 hk hp
    refine ⟨_, by show (chunkOf st.a.ls st.l c).bind _ = _; rw [hk, Option.bind_some, e]; rfl,
      h.change els etab etot ef hc hm (by simp) (by simp) (by simp) (fun _ => rfl)⟩
  | sparseEnd c =>
    refine ⟨_, rfl, h.drop (d := upd st.l.dirty c false) (h.sparse c g.2) ?_ (upd_same _ _ _)⟩
    intro e he; exact upd_ne he
  | repart c =>
    have hm := h.lines.mapped c g.2.2
    obtain ⟨k, hk, hp⟩ := h.present hm
    obtain ⟨a', e, els, etab, etot, ef, hc, _⟩ := purge_ok h.ls h.lines.inj h.ctx g.1 hk hp
    refine ⟨_, by show (chunkOf st.a.ls st.l c).bind _ = _; rw [hk, Option.bind_some, e]; rfl,
      h.change els etab etot ef hc hm (by simp) (fun _ => g.2.2) (by simp) (by simp)⟩
  | map c core cl =>
    obtain ⟨h1, h2, h3, h4, size, h5, h6⟩ := g
    exact ⟨_, rfl, h.map h1 h2 h3 h4 h5 h6⟩
  | unmap c =>
    refine ⟨_, rfl, ?_⟩
    cases ha : st.l.at_ c with
    | none =>
      have : upd st.l.at_ c none = st.l.at_ := by
        funext d
        by_cases e : d = c
        · subst e; rw [upd_same, ha]
        · rw [upd_ne e]
      rw [this]; exact h
    | some x =>
      have hf : st.a.flag c = false := by rw [h.idle c g.2.1 (by rw [ha]; simp)]; exact g.2.2
      have := h.drop (c := c) (d := st.l.dirty) hf (fun _ _ => rfl) g.2.2
      have hp : upd st.phase c .idle = st.phase := by
        funext d
        by_cases e : d = c
        · subst e; rw [upd_same, g.2.1]
        · rw [upd_ne e]
      rw [hp] at this
      exact this
  | addCore core size =>
    obtain ⟨a, e, hi⟩ := h.addCore (size := size) g
    exact ⟨_, by show (Acp.addCore st.a core size).map _ = _; rw [e]; rfl, hi⟩
  | removeCore core =>
    obtain ⟨⟨size, hs⟩, hn⟩ := g
    obtain ⟨a, e, hi⟩ := h.removeCore hs hn
    exact ⟨_, by show (Acp.removeCore st.a core).map _ = _; rw [e]; rfl, hi⟩
  | error k hz => exact ⟨_, rfl, h.error k hz⟩
  | tick now =>
    exact ⟨_, rfl, ⟨h.ls, h.small, h.lines, h.ctx, h.tab, h.idle, h.busy, h.hot, h.clean, h.sparse⟩⟩
  | choose sched =>
    obtain ⟨a, e, _, hi⟩ := choose_inv (flag := st.a.flag) h.ls h.small h.lines g.1 g.2
      (touched := fun _ => false) (fun _ => rfl) st.now
    refine ⟨_, ?_, hi⟩
    show (initCtx (fun _ => true) st.a.ls st.a.flag st.cores).bind _ = _
    rw [e]; rfl

theorem Inv.chosen {st : State} (h : Chosen st) : Inv st := by
  obtain ⟨flag, a, sched, hs, e, e'⟩ := h.ctx
  obtain ⟨a2, e2, els, hi⟩ := choose_inv (flag := flag) h.ls h.small h.lines h.idle hs h.touched st.now
  rw [e] at e2
  cases e2
  rw [← e'] at hi
  exact hi

theorem Inv.fresh {st : State} (h : Fresh st) : Inv st := by
  obtain ⟨a, e, w, t, els, ef, hz⟩ := initCtx_ok (ls := st.a.ls) (flag := st.a.flag) h.lines.nodup
  rw [h.ctx] at e
  cases e
  have h0 : ∀ k, flagged st.a.ls st.l st.a.flag k = 0 := by
    intro k
    unfold flagged
    rw [List.countP_eq_zero]
    intro c _ hc
    simp only [Bool.and_eq_true, beq_iff_eq] at hc
    have : st.l.at_ c ≠ none := by
      intro ha
      have h2 := hc.2
      unfold chunkOf at h2; rw [ha] at h2; simp at h2
    rw [h.flag c this] at hc
    simp at hc
  constructor
  · exact h.ls
  · exact h.small
  · exact h.lines
  · refine ⟨w, ?_, ?_, ?_⟩
    · intro k hk; rw [hz k hk, h0]
    · intro k hk _; rw [hz k hk]; exact ⟨Nat.zero_le _, Nat.zero_le _, Or.inl rfl⟩
    · intro k _ ht; rw [h.touched] at ht; cases ht
  · exact t
  · intro c _ hm; rw [h.flag c hm, h.clean]
  · intro c hc; exact absurd (h.idle c) hc
  · intro c hc; rw [h.idle] at hc; cases hc
  · intro c hc; rw [h.idle] at hc; cases hc
  · intro c hc; rw [h.idle] at hc; cases hc

theorem Inv.run {st st' : State} {ops : List Op} (h : Inv st) (r : Run st ops st') : Inv st' := by
  induction r with
  | nil => exact h
  | snoc _ g e ih =>
    obtain ⟨st2, e2, hi⟩ := ih.exec g
    rw [e] at e2
    cases e2
    exact hi

end Verif.Acp
