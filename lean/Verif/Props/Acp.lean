import Verif.Lemma.AcpPass

/-! Property C29: the buckets of the ACP cleaning policy.

The statements speak of bytes: a chunk is 100 MiB of a core, and `dirtyLines` counts the cache lines
that hold a dirty sector of it. -/

namespace Verif.Acp

open Verif.Collision (upd upd_same upd_ne)

/-! ## Specification -/

/-- The line holds data of chunk `k`. -/
def inChunk (ls : Nat) (l : Lines) (k : Key) (c : Nat) : Bool :=
  match l.at_ c with
  | some (core, cl) => core == k.1 && decide (k.2 * (100 * 2 ^ 20) ≤ cl * ls) &&
      decide (cl * ls < (k.2 + 1) * (100 * 2 ^ 20))
  | none => false

/-- The number of dirty lines of a chunk. -/
def dirtyLines (st : State) (k : Key) : Nat :=
  (List.range st.l.n).countP fun c => st.l.dirty c && inChunk st.a.ls st.l k c

/-- `b` is the share of dirty lines in tenths of the chunk, rounded up. -/
def Share (ls b d : Nat) : Prop :=
  b ≤ 10 ∧ 10 * (d * ls) ≤ b * (100 * 2 ^ 20) ∧ (b = 0 ∨ (b - 1) * (100 * 2 ^ 20) < 10 * (d * ls))

/-- The chunk is part of a core of the cache. -/
def IsChunk (st : State) (k : Key) : Prop := ∃ size, (k.1, size) ∈ st.cores ∧ k.2 * (100 * 2 ^ 20) < size

/-- No line of the chunk is in the middle of an operation. -/
def Quiet (st : State) (k : Key) : Prop :=
  ∀ c, inChunk st.a.ls st.l k c = true → st.phase c = .idle

/-- The policy was started on a clean cache or filled for any cache. -/
def Started (st : State) : Prop := Fresh st ∨ Chosen st

theorem inChunk_eq (ls : Nat) (l : Lines) (k : Key) (c : Nat) :
    inChunk ls l k c = (chunkOf ls l c == some k) := by
  unfold inChunk chunkOf
  cases ha : l.at_ c with
  | none => rfl
  | some x =>
    obtain ⟨core, cl⟩ := x
    obtain ⟨kc, ki⟩ := k
    simp only [Option.map_some]
    have hC : chunkSize = 100 * 2 ^ 20 := rfl
    have hpos : 0 < chunkSize := by decide
    rw [← hC]
    have hd : chunkId ls cl = ki ↔ ki * chunkSize ≤ cl * ls ∧ cl * ls < (ki + 1) * chunkSize := by
      unfold chunkId
      rw [Nat.div_eq_iff hpos]
      generalize cl * ls = x
      rw [Nat.succ_mul]
      generalize ki * chunkSize = y
      generalize chunkSize = z at *
      omega
    rw [Bool.eq_iff_iff]
    simp only [Bool.and_eq_true, beq_iff_eq, decide_eq_true_eq, Option.some.injEq, Prod.mk.injEq, hd]
    grind

theorem isChunk_present {st : State} (h : Inv st) (k : Key) : IsChunk st k ↔ Present st.a k := by
  have hC : chunkSize = 100 * 2 ^ 20 := rfl
  have hpos : 0 < chunkSize := by decide
  have key : ∀ size, k.2 * chunkSize < size ↔ k.2 < numChunks size := by
    intro size
    unfold numChunks
    rw [← Nat.succ_le_iff (m := k.2), Nat.le_div_iff_mul_le hpos, Nat.succ_mul]
    generalize k.2 * chunkSize = y
    generalize chunkSize = z at *
    omega
  unfold IsChunk Present
  rw [← hC]
  constructor
  · rintro ⟨size, hs, hlt⟩
    exact ⟨numChunks size, (h.tab.tab _ _).2 ⟨size, hs, rfl⟩, (key size).1 hlt⟩
  · rintro ⟨m, hm, hlt⟩
    obtain ⟨size, hs, e⟩ := (h.tab.tab _ _).1 hm
    exact ⟨size, hs, (key size).2 (by rw [← e]; exact hlt)⟩

theorem Started.inv {st : State} (h : Started st) : Inv st := by
  rcases h with h | h
  · exact Inv.fresh h
  · exact Inv.chosen h

theorem dirtyLines_eq {st : State} (h : Inv st) {k : Key} (q : Quiet st k) :
    dirtyLines st k = flagged st.a.ls st.l st.a.flag k := by
  unfold dirtyLines flagged
  refine countP_range_congr fun c hc => ?_
  rw [inChunk_eq]
  cases hk : (chunkOf st.a.ls st.l c == some k) with
  | false => simp
  | true =>
    have hi := q c (by rw [inChunk_eq]; exact hk)
    have hm : st.l.at_ c ≠ none := by
      intro ha
      rw [show chunkOf st.a.ls st.l c = none by unfold chunkOf; rw [ha]; rfl] at hk
      simp at hk
    rw [h.idle c hi hm]

theorem share_of_exact {ls b d : Nat} (hv : ValidLs ls) (h : Exact (perChunk ls / 10) b d) :
    Share ls b d := by
  obtain ⟨h1, h2, h3⟩ := h
  rcases validLs_cases hv with rfl | rfl | rfl | rfl | rfl <;>
    (simp only [perChunk, chunkSize] at h2 h3; unfold Share; omega)

theorem tenths_of_low {ls b d : Nat} (hv : ValidLs ls) (h : Low (perChunk ls / 10) b d) :
    b * (100 * 2 ^ 20) ≤ 10 * (d * ls) ∧ (b < 10 → 10 * (d * ls) < (b + 1) * (100 * 2 ^ 20)) := by
  obtain ⟨h1, h2, h3⟩ := h
  have hC : 100 * 2 ^ 20 = 10 * (perChunk ls / 10 * ls) := by
    rcases validLs_cases hv with rfl | rfl | rfl | rfl | rfl <;> rfl
  have hpos : 0 < ls := (perChunk_facts hv).2.2.2.2
  rw [hC]
  generalize perChunk ls / 10 = u at *
  constructor
  · rw [Nat.mul_left_comm, ← Nat.mul_assoc b]
    exact Nat.mul_le_mul_left 10 (Nat.mul_le_mul_right ls h2)
  · intro hb
    rw [Nat.mul_left_comm (b + 1), ← Nat.mul_assoc (b + 1)]
    exact (Nat.mul_lt_mul_left (by decide : 0 < 10)).2 ((Nat.mul_lt_mul_right hpos).2 (h3 hb))

/-! ## Theorems -/

/-- However lines become dirty and clean, every chunk is in exactly one bucket, once, and if an
operation touched one of its lines since the buckets were filled, it is the bucket of its share of
dirty lines. -/
theorem bucket_matches {st0 st : State} {ops : List Op} (h0 : Started st0) (r : Run st0 ops st)
    {k : Key} (hk : IsChunk st k) (q : Quiet st k) (ht : st.touched k = true) :
    ∃ b, Share st.a.ls b (dirtyLines st k) ∧ (st.a.list b).count k = 1 ∧
      ∀ b', b' ≠ b → k ∉ st.a.list b' := by
  have h := h0.inv.run r
  have hp := (isChunk_present h k).1 hk
  refine ⟨(st.a.chunk k).bucket, ?_, ?_, ?_⟩
  · rw [dirtyLines_eq h q, ← h.ctx.num k hp]
    exact share_of_exact h.ls (h.ctx.exact k hp ht)
  · exact List.count_eq_one_of_mem (h.ctx.wf.nodup _) ((h.ctx.wf.mem _ _).2 ⟨hp, rfl⟩)
  · intro b' hb hm
    exact hb ((h.ctx.wf.mem _ _).1 hm).2.symm

/-- A chunk with a dirty line that was touched is in a bucket from which chunks are selected, a clean
one is not. -/
theorem dirty_selectable {st0 st : State} {ops : List Op} (h0 : Started st0) (r : Run st0 ops st)
    {k : Key} (hk : IsChunk st k) (q : Quiet st k) (ht : st.touched k = true) :
    (∃ b, 1 ≤ b ∧ b ≤ 10 ∧ k ∈ st.a.list b) ↔ 0 < dirtyLines st k := by
  have h := h0.inv.run r
  obtain ⟨b, ⟨hs1, hs2, hs3⟩, hc, hu⟩ := bucket_matches h0 r hk q ht
  have hl := (perChunk_facts h.ls).2.2.2.2
  have hmem : k ∈ st.a.list b := List.count_pos_iff.1 (by omega)
  constructor
  · rintro ⟨b', h1, _, hm⟩
    have hb : b' = b := by
      by_contra hne; exact hu b' hne hm
    subst hb
    rcases Nat.eq_zero_or_pos (dirtyLines st k) with e | e
    · rw [e] at hs3; simp only [Nat.zero_mul, Nat.mul_zero] at hs3; omega
    · exact e
  · intro hd
    refine ⟨b, ?_, hs1, hmem⟩
    rcases Nat.eq_zero_or_pos b with e | e
    · rw [e] at hs2
      have := Nat.mul_pos hd hl
      omega
    · exact e

/-- A chunk that was not touched since the buckets were filled is in the bucket of its share rounded
down. -/
theorem untouched_rounded_down {st0 st : State} {ops : List Op} (h0 : Started st0)
    (r : Run st0 ops st) {k : Key} (hk : IsChunk st k) (q : Quiet st k) (ht : st.touched k = false) :
    ∃ b, b ≤ 10 ∧ b * (100 * 2 ^ 20) ≤ 10 * (dirtyLines st k * st.a.ls) ∧
      (b < 10 → 10 * (dirtyLines st k * st.a.ls) < (b + 1) * (100 * 2 ^ 20)) ∧
      (st.a.list b).count k = 1 ∧ ∀ b', b' ≠ b → k ∉ st.a.list b' := by
  have h := h0.inv.run r
  have hp := (isChunk_present h k).1 hk
  have hl := h.ctx.low k hp ht
  rw [h.ctx.num k hp, ← dirtyLines_eq h q] at hl
  refine ⟨(st.a.chunk k).bucket, hl.1, ?_, ?_, ?_, ?_⟩
  · exact (tenths_of_low h.ls hl).1
  · exact (tenths_of_low h.ls hl).2
  · exact List.count_eq_one_of_mem (h.ctx.wf.nodup _) ((h.ctx.wf.mem _ _).2 ⟨hp, rfl⟩)
  · intro b' hb hm
    exact hb ((h.ctx.wf.mem _ _).1 hm).2.symm

/-- Touched or not, a chunk of which a tenth is dirty is in a bucket from which chunks are
selected. -/
theorem tenth_selectable {st0 st : State} {ops : List Op} (h0 : Started st0) (r : Run st0 ops st)
    {k : Key} (hk : IsChunk st k) (q : Quiet st k)
    (hd : 100 * 2 ^ 20 ≤ 10 * (dirtyLines st k * st.a.ls)) :
    ∃ b, 1 ≤ b ∧ b ≤ 10 ∧ k ∈ st.a.list b := by
  cases ht : st.touched k with
  | true =>
    refine (dirty_selectable h0 r hk q ht).2 ?_
    rcases Nat.eq_zero_or_pos (dirtyLines st k) with e | e
    · rw [e] at hd; omega
    · exact e
  | false =>
    obtain ⟨b, h1, h2, h3, h4, _⟩ := untouched_rounded_down h0 r hk q ht
    refine ⟨b, ?_, h1, List.count_pos_iff.1 (by omega)⟩
    rcases Nat.eq_zero_or_pos b with e | e
    · rw [e] at h3; have := h3 (by omega); omega
    · exact e

/-- Each operation on a line touches its chunk. -/
theorem touched_by {st st' : State} {op : Op} {c : Nat} {k : Key}
    (hop : op = .hot c ∨ op = .purge c ∨ op = .sparse c ∨ op = .repart c)
    (hk : inChunk st.a.ls st.l k c = true) (e : exec st op = some st') : st'.touched k = true := by
  rw [inChunk_eq] at hk
  have hk : chunkOf st.a.ls st.l c = some k := by simpa using hk
  rcases hop with rfl | rfl | rfl | rfl
  · have e : ((chunkOf st.a.ls st.l c).bind fun k => (setHot st.a k c).map _) = some st' := e
    rw [hk, Option.bind_some, Option.map_eq_some_iff] at e
    obtain ⟨a, _, rfl⟩ := e
    exact updK_same _ _ _
  all_goals
    have e : ((chunkOf st.a.ls st.l c).bind fun k => (Acp.purge st.a k c).map _) = some st' := e
    rw [hk, Option.bind_some, Option.map_eq_some_iff] at e
    obtain ⟨a, _, rfl⟩ := e
    exact updK_same _ _ _

/-- The chunk stays touched until the policy is chosen anew. -/
theorem touched_stays {st st' : State} {op : Op} (hop : ∀ s, op ≠ .choose s) {k : Key}
    (ht : st.touched k = true) (e : exec st op = some st') : st'.touched k = true := by
  have hu : ∀ j, updK st.touched j true k = true := by
    intro j
    by_cases e : k = j
    · subst e; exact updK_same _ _ _
    · rw [updK_ne e]; exact ht
  cases op with
  | markDirty c => cases e; exact ht
  | markClean c => cases e; exact ht
  | sparseEnd c => cases e; exact ht
  | map c core cl => cases e; exact ht
  | unmap c => cases e; exact ht
  | error k hz => cases e; exact ht
  | tick now => cases e; exact ht
  | choose s => exact absurd rfl (hop s)
  | addCore core size =>
    obtain ⟨a, _, rfl⟩ := Option.map_eq_some_iff.1 e
    show (if k.1 = core then true else st.touched k) = true
    rw [ht]; split <;> rfl
  | removeCore core =>
    obtain ⟨a, _, rfl⟩ := Option.map_eq_some_iff.1 e
    exact ht
  | hot c =>
    obtain ⟨j, _, e⟩ := Option.bind_eq_some_iff.1 e
    obtain ⟨a, _, rfl⟩ := Option.map_eq_some_iff.1 e
    exact hu j
  | purge c =>
    obtain ⟨j, _, e⟩ := Option.bind_eq_some_iff.1 e
    obtain ⟨a, _, rfl⟩ := Option.map_eq_some_iff.1 e
    exact hu j
  | sparse c =>
    obtain ⟨j, _, e⟩ := Option.bind_eq_some_iff.1 e
    obtain ⟨a, _, rfl⟩ := Option.map_eq_some_iff.1 e
    exact hu j
  | repart c =>
    obtain ⟨j, _, e⟩ := Option.bind_eq_some_iff.1 e
    obtain ⟨a, _, rfl⟩ := Option.map_eq_some_iff.1 e
    exact hu j

/-- No assertion of the policy fails, whatever the operations. -/
theorem no_assertion {st0 st : State} {ops : List Op} (h0 : Started st0) (r : Run st0 ops st)
    {op : Op} (g : guard st op) : ∃ st', exec st op = some st' := by
  obtain ⟨st', e, _⟩ := (h0.inv.run r).exec g
  exact ⟨st', e⟩

/-- The dirty flags of the policy agree with the dirty bits of every mapped line no operation is busy
with. -/
theorem flags_agree {st0 st : State} {ops : List Op} (h0 : Started st0) (r : Run st0 ops st) {c : Nat}
    (hi : st.phase c = .idle) (hm : st.l.at_ c ≠ none) : st.a.flag c = st.l.dirty c :=
  (h0.inv.run r).idle c hi hm

/-! ### Selection -/

/-- The selected chunk may be cleaned, and if chunks were touched, no chunk that may be cleaned has a
greater share of dirty lines, in tenths. -/
theorem selected_dirtiest {st0 st : State} {ops : List Op} (h0 : Started st0) (r : Run st0 ops st)
    {opened : Nat → Bool} {k : Key} (hs : candidate st.a opened st.now = some k) :
    IsChunk st k ∧ canClean st.a opened st.now k = true ∧
      (st.touched k = true → Quiet st k → 0 < dirtyLines st k) ∧
      ∀ j, IsChunk st j → Quiet st j → Quiet st k → st.touched j = true → st.touched k = true →
        canClean st.a opened st.now j = true →
        ∀ bj bk, Share st.a.ls bj (dirtyLines st j) → Share st.a.ls bk (dirtyLines st k) → bj ≤ bk := by
  have h := h0.inv.run r
  obtain ⟨b, h1, h2, hm, hc, hno⟩ := candidate_some hs
  have hk : IsChunk st k := (isChunk_present h k).2 ((h.ctx.wf.mem _ _).1 hm).1
  refine ⟨hk, hc, fun ht q => ?_, ?_⟩
  · exact (dirty_selectable h0 r hk q ht).1 ⟨b, h1, h2, hm⟩
  · intro j hj qj qk tj tk cj bj bk sj sk
    obtain ⟨bk', sk', ck', uk'⟩ := bucket_matches h0 r hk qk tk
    obtain ⟨bj', sj', cj', uj'⟩ := bucket_matches h0 r hj qj tj
    have huniq : ∀ {b1 b2 d : Nat}, Share st.a.ls b1 d → Share st.a.ls b2 d → b1 = b2 := by
      intro b1 b2 d s1 s2
      obtain ⟨_, a2, a3⟩ := s1
      obtain ⟨_, c2, c3⟩ := s2
      omega
    have e1 := huniq sk sk'
    have e2 := huniq sj sj'
    have e3 : b = bk' := by
      by_contra hne; exact uk' b hne hm
    by_contra hlt
    have hjm : j ∈ st.a.list bj' := List.count_pos_iff.1 (by omega)
    have := hno bj' (by omega) sj'.1 j hjm
    rw [cj] at this; cases this

/-- If a touched chunk with a dirty line may be cleaned, a chunk is selected. -/
theorem some_selected {st0 st : State} {ops : List Op} (h0 : Started st0) (r : Run st0 ops st)
    {opened : Nat → Bool} {k : Key} (hk : IsChunk st k) (q : Quiet st k) (ht : st.touched k = true)
    (hd : 0 < dirtyLines st k) (hc : canClean st.a opened st.now k = true) :
    candidate st.a opened st.now ≠ none := by
  intro hn
  obtain ⟨b, h1, h2, hm⟩ := (dirty_selectable h0 r hk q ht).2 hd
  have := candidate_none hn h1 h2 hm
  rw [hc] at this; cases this

/-! ### Collecting the lines of a chunk -/

/-- The calls that clean one chunk, each with its limit: together they collect, in order, what
`_acp_trylock_dirty` finds for each core line of the chunk, asking once for each; no call collects
more than its limit; and with limits above zero the end is reached after at most one call more than
the chunk has lines. -/
theorem pass_exact (look : Nat → Option Nat) (perChunk : Nat) (maxs : List Nat) :
    ((calls look perChunk maxs 0).2 = perChunk →
      (calls look perChunk maxs 0).1.flatten = (List.range perChunk).filterMap look) ∧
    (∀ (i : Nat) (xs : List Nat), (calls look perChunk maxs 0).1[i]? = some xs →
      ∃ m, maxs[i]? = some m ∧ xs.length ≤ m) ∧
    ((∀ m ∈ maxs, 0 < m) → perChunk < maxs.length → (calls look perChunk maxs 0).2 = perChunk) := by
  obtain ⟨_, _, h3, h4, h5⟩ := calls_spec look perChunk maxs 0 (by omega)
  refine ⟨fun e => ?_, h4, fun hp hl => h5 hp (by omega)⟩
  rw [h3, e, List.range_eq_range']; rfl

/-- In a cache that does not change meanwhile, the calls collect exactly the dirty lines of the chunk
that are not locked, each once. -/
theorem pass_collects {st0 st : State} {ops : List Op} (h0 : Started st0) (r : Run st0 ops st)
    (free : Nat → Bool) (k : Key) {maxs : List Nat}
    (hend : (calls (fun i => trylock st.l free k.1 (k.2 * (chunkSize / st.a.ls) + i))
      (chunkSize / st.a.ls) maxs 0).2 = chunkSize / st.a.ls) :
    (calls (fun i => trylock st.l free k.1 (k.2 * (chunkSize / st.a.ls) + i))
      (chunkSize / st.a.ls) maxs 0).1.flatten.Nodup ∧
    ∀ c, c ∈ (calls (fun i => trylock st.l free k.1 (k.2 * (chunkSize / st.a.ls) + i))
        (chunkSize / st.a.ls) maxs 0).1.flatten ↔
      c < st.l.n ∧ st.l.dirty c = true ∧ inChunk st.a.ls st.l k c = true ∧ free c = true := by
  have h := h0.inv.run r
  rw [(pass_exact _ _ maxs).1 hend]
  have hp := perChunk_facts h.ls
  have hpos : 0 < perChunk st.a.ls := by omega
  have hP : chunkSize / st.a.ls = perChunk st.a.ls := rfl
  rw [hP]
  constructor
  · refine List.nodup_range.filterMap ?_
    intro i j c hi hj
    have hi := (trylock_some h.lines.inj).1 hi
    have hj := (trylock_some h.lines.inj).1 hj
    have e := hi.2.1.symm.trans hj.2.1
    have e := congrArg Prod.snd (Option.some.inj e)
    simp only at e
    omega
  · intro c
    rw [List.mem_filterMap, inChunk_eq]
    unfold chunkOf
    constructor
    · rintro ⟨i, hi, hc⟩
      obtain ⟨h1, h2, h3, h4⟩ := (trylock_some h.lines.inj).1 hc
      refine ⟨h1, h3, ?_, h4⟩
      rw [h2]
      simp only [Option.map_some, beq_iff_eq, Option.some.injEq]
      rw [chunkId_eq h.ls, Nat.mul_comm, Nat.mul_add_div hpos,
        Nat.div_eq_of_lt (List.mem_range.1 hi)]
      rfl
    · rintro ⟨h1, h3, h2, h4⟩
      cases ha : st.l.at_ c with
      | none => rw [ha] at h2; simp at h2
      | some x =>
        obtain ⟨core, cl⟩ := x
        rw [ha] at h2
        simp only [Option.map_some, beq_iff_eq, Option.some.injEq] at h2
        rw [chunkId_eq h.ls] at h2
        refine ⟨cl % perChunk st.a.ls, List.mem_range.2 (Nat.mod_lt _ hpos), ?_⟩
        refine (trylock_some h.lines.inj).2 ⟨h1, ?_, h3, h4⟩
        rw [ha, ← h2]
        simp only
        rw [Nat.mul_comm, Nat.div_add_mod]

/-! ### What the policy gets wrong -/

/-- A chunk of which less than a tenth is dirty, filled in when the policy was chosen (or after a
dirty shutdown), is in the bucket that is never cleaned: as long as no operation touches one of its
lines it is never selected, though it is dirty. -/
theorem hidden_after_choose {st0 st : State} {ops : List Op} (h0 : Started st0) (r : Run st0 ops st)
    {k : Key} (hk : IsChunk st k) (q : Quiet st k) (ht : st.touched k = false)
    (hd : 10 * (dirtyLines st k * st.a.ls) < 100 * 2 ^ 20) (opened : Nat → Bool) (now : Nat) :
    k ∈ st.a.list 0 ∧ candidate st.a opened now ≠ some k := by
  obtain ⟨b, h1, h2, h3, h4, h5⟩ := untouched_rounded_down h0 r hk q ht
  have hb : b = 0 := by omega
  subst hb
  refine ⟨List.count_pos_iff.1 (by omega), fun hc => ?_⟩
  obtain ⟨b, g1, _, g3, _⟩ := candidate_some hc
  exact h5 b (by omega) g3

/-- An operation that changes the time of the next cleaning of chunk `k`. -/
def Resets (k : Key) : Op → Prop
  | .addCore core _ => core = k.1
  | .error j _ => j = k
  | .choose _ => True
  | _ => False

/-- After a failed flush a chunk may be cleaned at once, during the time it should be left alone;
once that time is over it is never cleaned again, whatever happens, unless a flush fails again, the
core is added anew or the policy is chosen anew. -/
theorem backoff_inverted {st0 st : State} {ops : List Op} (h0 : Inv st0) (r : Run st0 ops st)
    {k : Key} {opened : Nat → Bool} {hz t : Nat} (hhz : 0 < hz)
    (hts : (st0.a.chunk k).ts = t + backoff hz) (hops : ∀ op ∈ ops, ¬ Resets k op)
    (ho : opened k.1 = true) :
    (st.now < t + 5 * hz → canClean st.a opened st.now k = true) ∧
    (t + 5 * hz ≤ st.now → canClean st.a opened st.now k = false) := by
  have key : (st.a.chunk k).ts = t + backoff hz := by
    induction r with
    | nil => exact hts
    | snoc r g e ih =>
      rename_i s' s'' ops op
      have hops1 : ∀ op ∈ ops, ¬ Resets k op := fun o ho => hops o (List.mem_append_left _ ho)
      have hop : ¬ Resets k op := hops op (by simp)
      have ih := ih hops1
      have h := h0.run r
      rw [← ih]
      cases op with
      | markDirty c => cases e; rfl
      | markClean c => cases e; rfl
      | sparseEnd c => cases e; rfl
      | map c core cl => cases e; rfl
      | unmap c => cases e; rfl
      | tick now => cases e; rfl
      | error j hz =>
        cases e
        have hne : k ≠ j := fun e => hop e.symm
        show (updK s'.a.chunk j _ k).ts = _
        rw [updK_ne hne]
      | choose s => exact absurd trivial hop
      | addCore core size =>
        obtain ⟨a, ea, rfl⟩ := Option.map_eq_some_iff.1 e
        obtain ⟨a', e', _, _, _, _, _, hne, _⟩ := addCore_ok h.ctx.wf h.tab size g
        rw [ea] at e'
        cases e'
        show (a.chunk k).ts = _
        rw [hne k (fun e => hop e.symm)]
      | removeCore core =>
        obtain ⟨a, ea, rfl⟩ := Option.map_eq_some_iff.1 e
        obtain ⟨⟨size, hs⟩, hn⟩ := g
        obtain ⟨a', e', _, _, _, _, hch, _⟩ := removeCore_ok h.ctx.wf h.tab hs
        rw [ea] at e'
        cases e'
        show (a.chunk k).ts = _
        rw [hch]
      | hot c =>
        have hd : s'.l.at_ c ≠ none := by
          rcases g.2 with g' | g'
          · exact h.busy c (by rw [g']; simp)
          · exact g'.2.1
        obtain ⟨j, hj, hp⟩ := h.present hd
        obtain ⟨a', ea, _, _, _, _, _, hts'⟩ := setHot_ok h.ls h.lines.inj h.ctx g.1 hj hp
        obtain ⟨j', hj', e⟩ := Option.bind_eq_some_iff.1 e
        rw [hj] at hj'; cases hj'
        rw [ea] at e; cases e
        exact hts' k
      | purge c =>
        obtain ⟨j, hj, hp⟩ := h.present (h.busy c (by rw [g.2]; simp))
        obtain ⟨a', ea, _, _, _, _, _, hts'⟩ := purge_ok h.ls h.lines.inj h.ctx g.1 hj hp
        obtain ⟨j', hj', e⟩ := Option.bind_eq_some_iff.1 e
        rw [hj] at hj'; cases hj'
        rw [ea] at e; cases e
        exact hts' k
      | sparse c =>
        obtain ⟨j, hj, hp⟩ := h.present (h.lines.mapped c g.2.2)
        obtain ⟨a', ea, _, _, _, _, _, hts'⟩ := purge_ok h.ls h.lines.inj h.ctx g.1 hj hp
        obtain ⟨j', hj', e⟩ := Option.bind_eq_some_iff.1 e
        rw [hj] at hj'; cases hj'
        rw [ea] at e; cases e
        exact hts' k
      | repart c =>
        obtain ⟨j, hj, hp⟩ := h.present (h.lines.mapped c g.2.2)
        obtain ⟨a', ea, _, _, _, _, _, hts'⟩ := purge_ok h.ls h.lines.inj h.ctx g.1 hj hp
        obtain ⟨j', hj', e⟩ := Option.bind_eq_some_iff.1 e
        rw [hj] at hj'; cases hj'
        rw [ea] at e; cases e
        exact hts' k
  unfold canClean
  rw [key, ho]
  unfold backoff
  constructor
  · intro h; simp; omega
  · intro h; simp; omega

/-- After a clean shutdown the cache is loaded without filling the buckets
(`/repo/src/mngt/ocf_mngt_cache.c:747-751`): then no chunk is selected, however many lines are
dirty. -/
theorem load_hides {ls : Nat} {flag : Nat → Bool} {cores : Cores} (hn : (cores.map Prod.fst).Nodup)
    {a : Ctx} (e : initCtx (fun _ => true) ls flag cores = some (some a)) (opened : Nat → Bool)
    (now : Nat) : candidate a opened now = none := by
  obtain ⟨a', e', w, t, _, _, hz⟩ := initCtx_ok (ls := ls) (flag := flag) hn
  rw [e] at e'
  cases e'
  cases hc : candidate a opened now with
  | none => rfl
  | some k =>
    obtain ⟨b, h1, _, hm, _⟩ := candidate_some hc
    have := (w.mem b k).1 hm
    rw [hz k this.1] at this
    have := this.2
    simp only at this
    omega

/-- And when eleven of the dirty lines of one chunk, whose flags were loaded with the metadata, are
cleaned, an assertion fails: the counter of the chunk goes below zero. -/
theorem load_asserts {ls : Nat} (hv : ValidLs ls) {flag : Nat → Bool} {cores : Cores}
    (hn : (cores.map Prod.fst).Nodup) {a : Ctx}
    (e : initCtx (fun _ => true) ls flag cores = some (some a)) {k : Key} {size : Nat}
    (hk : (k.1, size) ∈ cores) (hk2 : k.2 * (100 * 2 ^ 20) < size) {cs : List Nat} (hcs : cs.Nodup)
    (hlen : 11 ≤ cs.length) (hf : ∀ c ∈ cs, flag c = true) :
    purges k a cs = none := by
  obtain ⟨a', e', w, t, els, ef, hz⟩ := initCtx_ok (ls := ls) (flag := flag) hn
  rw [e] at e'
  cases e'
  have hC : chunkSize = 100 * 2 ^ 20 := rfl
  have hpos : 0 < chunkSize := by decide
  have hp : Present a k := by
    refine ⟨numChunks size, (t.tab _ _).2 ⟨size, hk, rfl⟩, ?_⟩
    rw [← hC] at hk2
    unfold numChunks
    rw [← Nat.succ_le_iff, Nat.le_div_iff_mul_le hpos, Nat.succ_mul]
    generalize k.2 * chunkSize = y at *
    generalize chunkSize = z at *
    omega
  refine purges_bug k cs a 0 (by rw [els]; exact hv) (by omega) (by rw [hz k hp]) (by rw [hz k hp])
    hcs (fun c hc => by rw [ef]; exact hf c hc) (by omega)

/-- With more than `2 ^ 32 - 32` lines the last of the shards that fill the buckets does nothing. -/
theorem last_shard_skipped {n : Nat} (h1 : 2 ^ 32 - 32 < n) (h2 : n < 2 ^ 32) :
    shardLines n shardsCnt 31 = [] := by
  have hp : portion n shardsCnt = 2 ^ 27 := by unfold portion shardsCnt; omega
  have he : shardEnd n shardsCnt 31 = 0 := by unfold shardEnd; rw [hp]; omega
  unfold shardLines
  rw [he, Nat.zero_sub]
  rfl

/-- If the table of a core cannot be allocated, the clean-up fails an assertion. -/
theorem alloc_failure_asserts {alloc : Nat → Bool} {ls : Nat} {flag : Nat → Bool} {cores : Cores}
    (hn : (cores.map Prod.fst).Nodup) (h : ∃ x ∈ cores, alloc x.1 = false) :
    initCtx alloc ls flag cores = none := by
  obtain ⟨a, core, e, ht, hm⟩ := loadLoop_fail (alloc := alloc) (rest := cores) (empty_wf ls flag)
    (empty_tab ls flag) (by simpa using hn) h
  unfold initCtx
  rw [e, Option.bind_some]
  simp only [Bool.false_eq_true, ↓reduceIte]
  rw [removeCores_bug ht (by simpa using hm)]
  rfl

/-! ## Examples -/

/-- Four lines of 64 KiB: three dirty ones of the first chunk of core 1, one of the second. -/
def exLines : Lines :=
  ⟨4, fun c => if c < 3 then some (1, c) else if c = 3 then some (1, 1600) else none,
    fun c => decide (c < 4)⟩

/-- Core 1 has 300 MiB and core 2 has 50 MiB. -/
def exCores : Cores := [(1, 300 * 2 ^ 20), (2, 50 * 2 ^ 20)]

def exSched : List (Nat × Nat) := [(3, 3), (0, 0), (2, 2), (1, 1)]

theorem exSched_ok : Sched 4 shardsCnt exSched := ⟨by decide, by decide⟩

theorem exCores_nodup : (exCores.map Prod.fst).Nodup := by decide

theorem exLines_ok : LinesOk 65536 exLines exCores where
  nodup := exCores_nodup
  out c hc := by
    have hc : 4 ≤ c := hc
    show (if c < 3 then some (1, c) else if c = 3 then some (1, 1600) else none) = none
    rw [if_neg (by omega), if_neg (by omega)]
  inj c d x hc hd := by
    simp only [exLines] at hc hd
    grind
  inside c core cl h := by
    refine ⟨300 * 2 ^ 20, ?_⟩
    simp only [exLines] at h
    have : core = 1 ∧ cl ≤ 1600 := by grind
    obtain ⟨rfl, h⟩ := this
    exact ⟨by decide, by omega⟩
  mapped c h := by
    have h : c < 4 := of_decide_eq_true h
    show (if c < 3 then some (1, c) else if c = 3 then some (1, 1600) else none) ≠ none
    by_cases h3 : c < 3
    · rw [if_pos h3]; simp
    · rw [if_neg h3, if_pos (by omega)]; simp

/-- A state just after the policy was chosen exists, and the dirty chunk is hidden in it. -/
example : ∃ st, Chosen st ∧ IsChunk st (1, 0) ∧ Quiet st (1, 0) ∧ st.touched (1, 0) = false ∧
    0 < dirtyLines st (1, 0) ∧ 10 * (dirtyLines st (1, 0) * st.a.ls) < 100 * 2 ^ 20 := by
  obtain ⟨a, e, w, t, els, ef, hz⟩ := initCtx_ok (ls := 65536) (flag := fun _ => true) exCores_nodup
  have hls : (populate a exLines exCores exSched).ls = 65536 := els
  have hd : dirtyLines ⟨populate a exLines exCores exSched, exLines, fun _ => .idle, exCores, 0,
      fun _ => false⟩ (1, 0) = 3 := by
    unfold dirtyLines
    show List.countP (fun c => exLines.dirty c && inChunk (populate a exLines exCores exSched).ls exLines
      (1, 0) c) (List.range 4) = 3
    rw [hls]
    decide +kernel
  refine ⟨⟨populate a exLines exCores exSched, exLines, fun _ => .idle, exCores, 0, fun _ => false⟩,
    ⟨?_, (by decide : 4 ≤ 2 ^ 32 - 32), ?_, fun _ => rfl, ⟨fun _ => true, a, exSched, exSched_ok, ?_, rfl⟩, fun _ => rfl⟩,
    ⟨300 * 2 ^ 20, (by decide : (1, 300 * 2 ^ 20) ∈ exCores), by decide⟩, fun _ _ => rfl, rfl, ?_, ?_⟩
  · show ValidLs (populate a exLines exCores exSched).ls
    rw [hls]; unfold ValidLs; decide
  · rw [hls]; exact exLines_ok
  · rw [hls]; exact e
  · rw [hd]; decide
  · rw [hd, hls]; decide

/-- The executable form of a run. -/
def runOps : State → List Op → Option State
  | st, [] => some st
  | st, op :: ops => (exec st op).bind fun st => runOps st ops

/-- A new cache with the same lines, all of them clean. -/
def exFresh (a : Ctx) : State :=
  ⟨a, { exLines with dirty := fun _ => false }, fun _ => .idle, exCores, 0, fun _ => true⟩

theorem exFresh_ok : ∃ a, initCtx (fun _ => true) 65536 (fun _ => false) exCores = some (some a) ∧
    Fresh (exFresh a) := by
  obtain ⟨a, e, w, t, els, ef, hz⟩ := initCtx_ok (ls := 65536) (flag := fun _ => false) exCores_nodup
  refine ⟨a, e, ?_, (by decide : 4 ≤ 2 ^ 32 - 32), ?_, fun _ => rfl, fun _ => rfl, ?_, ?_, fun _ => rfl⟩
  · show ValidLs a.ls; rw [els]; unfold ValidLs; decide
  · show LinesOk a.ls _ exCores
    rw [els]
    exact ⟨exLines_ok.nodup, exLines_ok.out, exLines_ok.inj, exLines_ok.inside, fun c h => by cases h⟩
  · intro c _; show a.flag c = false; rw [ef]
  · show initCtx _ a.ls a.flag exCores = some (some a)
    rw [els, ef]; exact e

/-- A line of the first chunk becomes dirty. -/
example : ∃ st0 st, Started st0 ∧ Run st0 [.markDirty 0, .hot 0] st ∧ IsChunk st (1, 0) ∧
    Quiet st (1, 0) ∧ st.touched (1, 0) = true ∧ dirtyLines st (1, 0) = 1 := by
  obtain ⟨a, e, hF⟩ := exFresh_ok
  have els : a.ls = 65536 := by
    obtain ⟨a', e', _, _, els, _⟩ := initCtx_ok (ls := 65536) (flag := fun _ => false) exCores_nodup
    rw [e] at e'; cases e'; exact els
  have g1 : guard (exFresh a) (.markDirty 0) :=
    ⟨(by decide : 0 < 4), rfl, (by decide : exLines.at_ 0 ≠ none)⟩
  obtain ⟨s1, e1, i1⟩ := (Inv.fresh hF).exec g1
  have r1 := (Run.nil (exFresh a)).snoc g1 e1
  have g2 : guard s1 (.hot 0) := by cases e1; exact ⟨(by decide : 0 < 4), .inl rfl⟩
  obtain ⟨s2, e2, i2⟩ := i1.exec g2
  have r2 := r1.snoc g2 e2
  refine ⟨_, s2, .inl hF, r2, ?_⟩
  have hls : s2.a.ls = 65536 := by
    obtain ⟨j, hj, hp⟩ := i1.present (c := 0) (by cases e1; exact (by decide : exLines.at_ 0 ≠ none))
    obtain ⟨a', ea, hl, _⟩ := setHot_ok i1.ls i1.lines.inj i1.ctx g2.1 hj hp
    obtain ⟨j', hj', e⟩ := Option.bind_eq_some_iff.1 e2
    rw [hj] at hj'; cases hj'
    rw [ea] at e; cases e
    show a'.ls = _
    rw [hl]; cases e1; exact els
  obtain ⟨j, hj, e⟩ := Option.bind_eq_some_iff.1 e2
  obtain ⟨a', ea, rfl⟩ := Option.map_eq_some_iff.1 e
  cases e1
  have hj : chunkOf a.ls exLines 0 = some j := hj
  rw [els, show chunkOf 65536 exLines 0 = some (1, 0) by decide +kernel] at hj
  cases hj
  refine ⟨⟨300 * 2 ^ 20, (by decide : (1, 300 * 2 ^ 20) ∈ exCores), by decide⟩, ?_, ?_, ?_⟩
  · intro c _
    show upd (upd (fun _ => Phase.idle) 0 .hot) 0 .idle c = .idle
    by_cases h : c = 0
    · subst h; exact upd_same _ _ _
    · rw [upd_ne h, upd_ne h]
  · show updK (fun _ => true) (1, 0) true (1, 0) = true
    exact updK_same _ _ _
  · have hls : a'.ls = 65536 := hls
    show List.countP (fun c => upd (fun _ => false) 0 true c && inChunk a'.ls
      { exLines with dirty := upd (fun _ => false) 0 true } (1, 0) c) (List.range 4) = 1
    rw [hls]
    decide +kernel

/-- The same with three lines, executed: the chunk moves to bucket 1 and is selected; with the lines
cleaned it returns to bucket 0. -/
example : ((initCtx (fun _ => true) 65536 (fun _ => false) exCores).bind fun a => a.bind fun a =>
    (runOps (exFresh a) [.markDirty 0, .hot 0, .markDirty 1, .hot 1, .markDirty 3, .hot 3]).map fun st =>
      (st.a.list 0, st.a.list 1, candidate st.a (fun _ => true) 7)) =
    some ([(2, 0), (1, 2)], [(1, 0), (1, 1)], some (1, 0)) := by decide +kernel

example : ((initCtx (fun _ => true) 65536 (fun _ => false) exCores).bind fun a => a.bind fun a =>
    (runOps (exFresh a) [.markDirty 0, .hot 0, .markClean 0, .purge 0]).map fun st =>
      (st.a.list 0, st.a.list 1, candidate st.a (fun _ => true) 7)) =
    some ([(1, 0), (2, 0), (1, 2), (1, 1)], [], none) := by decide +kernel

/-- After a failed flush the chunk is still selected, five seconds later never. -/
example : ((initCtx (fun _ => true) 65536 (fun _ => false) exCores).bind fun a => a.bind fun a =>
    (runOps (exFresh a) [.tick 1000, .markDirty 0, .hot 0, .error (1, 0) 100]).map fun st =>
      (candidate st.a (fun _ => true) 1001, candidate st.a (fun _ => true) 1500)) =
    some (some (1, 0), none) := by decide +kernel

/-- A pass over a small chunk with limits of two lines. -/
example : calls (fun i => if i % 2 = 0 then some (10 + i) else none) 7 [2, 2, 2] 0 =
    ([[10, 12], [14, 16]], 7) := by decide +kernel

/-- Eleven loaded flags. -/
example : ((initCtx (fun _ => true) 65536 (fun _ => true) exCores).bind fun a => a.map fun a =>
    ((purges (1, 0) a (List.range 10)).isSome, (purges (1, 0) a (List.range 11)).isSome)) =
    some (true, false) := by decide +kernel

end Verif.Acp
