import Verif.Model.MetaFlush
import Mathlib.Data.List.Perm.Basic
import Mathlib.Data.List.Nodup

/-! Property C15: the metadata pages a request writes are exactly the touched ones. -/

namespace Verif.MetaFlush

/-! ## Lemmas -/

theorem grow_spec : ∀ {rest : List Nat} {cur count : Nat}, (cur :: rest).Pairwise (· ≤ ·) →
    (∀ x ∈ cur :: rest, x < 2 ^ 32) →
    count ≤ (grow cur count rest).1 ∧ (grow cur count rest).2.length ≤ rest.length ∧
    (grow cur count rest).2.Pairwise (· ≤ ·) ∧
    (∀ x, x ∈ cur :: rest ↔ (cur ≤ x ∧ x < cur + ((grow cur count rest).1 - count) + 1) ∨
      x ∈ (grow cur count rest).2) ∧
    (∀ x ∈ (grow cur count rest).2, cur + ((grow cur count rest).1 - count) + 1 < x)
  | [], cur, count, _, _ => by
    refine ⟨Nat.le_refl _, Nat.le_refl _, List.Pairwise.nil, ?_, ?_⟩
    · intro x; simp only [grow, List.mem_singleton, List.not_mem_nil, or_false]; omega
    · intro x hx; exact absurd hx (by simp [grow])
  | p :: r, cur, count, hs, hb => by
    have hcp : cur ≤ p := (List.pairwise_cons.1 hs).1 p (by simp)
    have hs' := (List.pairwise_cons.1 hs).2
    have hb' : ∀ x ∈ p :: r, x < 2 ^ 32 := fun x hx => hb x (List.mem_cons_of_mem _ hx)
    have hp := hb' p (by simp)
    have hpr : ∀ x ∈ r, p ≤ x := (List.pairwise_cons.1 hs').1
    unfold grow
    by_cases e : cur = p
    · rw [if_pos e]
      subst e
      obtain ⟨h1, h2, h3, h4, h5⟩ := grow_spec (cur := cur) (count := count) hs' hb'
      refine ⟨h1, by simp only [List.length_cons]; omega, h3, ?_, h5⟩
      intro x
      rw [← h4 x]
      simp
    · rw [if_neg e]
      by_cases e2 : (cur + 1) % 2 ^ 32 ≠ p
      · rw [if_pos e2]
        rw [Nat.mod_eq_of_lt (by omega)] at e2
        refine ⟨Nat.le_refl _, Nat.le_refl _, hs', ?_, ?_⟩
        · intro x
          rw [List.mem_cons]
          simp only [Nat.sub_self]
          constructor
          · rintro (h | h)
            · left; omega
            · exact .inr h
          · rintro (h | h)
            · left; omega
            · exact .inr h
        · intro x hx
          simp only [Nat.sub_self]
          rcases List.mem_cons.1 hx with h | h
          · omega
          · have := hpr x h; omega
      · rw [if_neg e2]
        have e3 : cur + 1 = p := by
          have := Classical.not_not.1 e2
          rwa [Nat.mod_eq_of_lt (by omega)] at this
        obtain ⟨h1, h2, h3, h4, h5⟩ := grow_spec (cur := p) (count := count + 1) hs' hb'
        generalize grow p (count + 1) r = g at *
        refine ⟨by omega, by simp only [List.length_cons]; omega, h3, ?_, ?_⟩
        · intro x
          rw [List.mem_cons, h4 x]
          constructor
          · rintro (h | h | h)
            · left; omega
            · left; omega
            · exact .inr h
          · rintro (h | h)
            · by_cases hx : x = cur
              · exact .inl hx
              · right; left; omega
            · exact .inr (.inr h)
        · intro x hx
          have := h5 x hx
          omega

theorem runsFuel_spec : ∀ {fuel : Nat} {tab : List Nat}, tab.length ≤ fuel →
    tab.Pairwise (· ≤ ·) → (∀ x ∈ tab, x < 2 ^ 32) →
    (∀ x, x ∈ tab ↔ ∃ run ∈ runsFuel fuel tab, run.1 ≤ x ∧ x < run.1 + run.2) ∧
    (runsFuel fuel tab).Pairwise (fun a b => a.1 + a.2 < b.1) ∧
    (∀ run ∈ runsFuel fuel tab, 0 < run.2 ∧ run.1 ∈ tab)
  | 0, [], _, _, _ => by simp [runsFuel]
  | fuel + 1, [], _, _, _ => by simp [runsFuel]
  | fuel + 1, p :: r, hl, hs, hb => by
    obtain ⟨h1, h2, h3, h4, h5⟩ := grow_spec (cur := p) (count := 1) hs hb
    unfold runsFuel
    generalize grow p 1 r = g at *
    have hb2 : ∀ x ∈ g.2, x < 2 ^ 32 := fun x hx => hb x ((h4 x).2 (.inr hx))
    obtain ⟨i1, i2, i3⟩ := runsFuel_spec (fuel := fuel) (tab := g.2)
      (by simp only [List.length_cons] at hl; omega) h3 hb2
    refine ⟨?_, ?_, ?_⟩
    · intro x
      rw [h4 x, i1 x]
      constructor
      · rintro (h | ⟨run, hr, h⟩)
        · exact ⟨(p, g.1), by simp, h.1, by simp only; omega⟩
        · exact ⟨run, List.mem_cons_of_mem _ hr, h⟩
      · rintro ⟨run, hr, h⟩
        rcases List.mem_cons.1 hr with rfl | hr
        · left; simp only at h; omega
        · exact .inr ⟨run, hr, h⟩
    · refine List.pairwise_cons.2 ⟨fun run hr => ?_, i2⟩
      have := h5 run.1 (i3 run hr).2
      show p + g.1 < run.1
      omega
    · intro run hr
      rcases List.mem_cons.1 hr with rfl | hr
      · exact ⟨by simp only; omega, by simp⟩
      · exact ⟨(i3 run hr).1, (h4 _).2 (.inr (i3 run hr).2)⟩

theorem mem_addPages {raw : Raw} : ∀ {map : List MapInfo} {p : Nat},
    p ∈ addPages raw map ↔ ∃ m ∈ map, m.flush = true ∧ m.coll / raw.entriesInPage = p
  | [], p => by simp [addPages]
  | m :: r, p => by
    unfold addPages page
    by_cases h : m.flush = true
    · rw [if_pos h, List.mem_cons, mem_addPages (map := r)]
      constructor
      · rintro (e | ⟨x, hx, e⟩)
        · exact ⟨m, by simp, h, e.symm⟩
        · exact ⟨x, List.mem_cons_of_mem _ hx, e⟩
      · rintro ⟨x, hx, hf, e⟩
        rcases List.mem_cons.1 hx with rfl | hx
        · exact .inl e.symm
        · exact .inr ⟨x, hx, hf, e⟩
    · rw [if_neg h, mem_addPages (map := r)]
      constructor
      · rintro ⟨x, hx, e⟩; exact ⟨x, List.mem_cons_of_mem _ hx, e⟩
      · rintro ⟨x, hx, hf, e⟩
        rcases List.mem_cons.1 hx with rfl | hx
        · exact absurd hf h
        · exact ⟨x, hx, hf, e⟩

/-! ## The pages -/

/-- The pages of the device a flush writes, in order. -/
def written (raw : Raw) (sorted : List Nat) : List Nat := (runs sorted).flatMap (devPages raw)

/-- The pages that hold an entry of a line marked in the request. -/
def Touched (raw : Raw) (req : Req) (p : Nat) : Prop :=
  ∃ m ∈ req.map, m.flush = true ∧
    (p - raw.offset) * raw.entriesInPage ≤ m.coll ∧
    m.coll < (p - raw.offset + 1) * raw.entriesInPage ∧ raw.offset ≤ p

theorem touched_iff {raw : Raw} (he : 0 < raw.entriesInPage) {req : Req} {p : Nat} :
    Touched raw req p ↔ ∃ m ∈ req.map, m.flush = true ∧ p = raw.offset + m.coll / raw.entriesInPage := by
  unfold Touched
  have key : ∀ m : MapInfo, (p = raw.offset + m.coll / raw.entriesInPage ↔
      (p - raw.offset) * raw.entriesInPage ≤ m.coll ∧
      m.coll < (p - raw.offset + 1) * raw.entriesInPage ∧ raw.offset ≤ p) := by
    intro m
    constructor
    · rintro rfl
      rw [Nat.add_sub_cancel_left]
      refine ⟨Nat.div_mul_le_self _ _, ?_, Nat.le_add_right _ _⟩
      rw [Nat.mul_comm]
      exact Nat.lt_mul_div_succ _ he
    · rintro ⟨h1, h2, h3⟩
      have : m.coll / raw.entriesInPage = p - raw.offset := by
        refine Nat.div_eq_of_lt_le h1 ?_
        exact h2
      omega
  constructor
  · rintro ⟨m, hm, hf, h⟩; exact ⟨m, hm, hf, (key m).2 h⟩
  · rintro ⟨m, hm, hf, h⟩; exact ⟨m, hm, hf, (key m).1 h⟩

/-- What is assumed of the lines: 32-bit numbers. -/
def Lines32 (req : Req) : Prop := ∀ m ∈ req.map, m.coll < 2 ^ 32

theorem sorted_facts {raw : Raw} {req : Req} (hl : Lines32 req) {sorted : List Nat}
    (hs : SortOf (addPages raw req.map) sorted) :
    (∀ p, p ∈ sorted ↔ ∃ m ∈ req.map, m.flush = true ∧ m.coll / raw.entriesInPage = p) ∧
    (∀ x, x ∈ sorted ↔ ∃ run ∈ runs sorted, run.1 ≤ x ∧ x < run.1 + run.2) ∧
    (runs sorted).Pairwise (fun a b => a.1 + a.2 < b.1) ∧
    (∀ run ∈ runs sorted, 0 < run.2 ∧ run.1 ∈ sorted) := by
  have hm : ∀ p, p ∈ sorted ↔ ∃ m ∈ req.map, m.flush = true ∧ m.coll / raw.entriesInPage = p := by
    intro p; rw [hs.1.mem_iff, mem_addPages]
  have hb : ∀ x ∈ sorted, x < 2 ^ 32 := by
    intro x hx
    obtain ⟨m, hm, _, rfl⟩ := (hm x).1 hx
    exact Nat.lt_of_le_of_lt (Nat.div_le_self _ _) (hl m hm)
  exact ⟨hm, runsFuel_spec (Nat.le_refl _) hs.2 hb⟩

theorem mem_written {raw : Raw} {sorted : List Nat} {p : Nat} :
    p ∈ written raw sorted ↔ ∃ run ∈ runs sorted, raw.offset + run.1 ≤ p ∧ p < raw.offset + run.1 + run.2 := by
  unfold written devPages
  simp only [List.mem_flatMap, List.mem_range'_1]

/-- The pages written are exactly those that hold an entry of a marked line, each of them once, in
ascending order, and inside the segment. -/
theorem pages_exact {raw : Raw} (he : 0 < raw.entriesInPage) {req : Req} (hl : Lines32 req)
    {sorted : List Nat} (hs : SortOf (addPages raw req.map) sorted) :
    (∀ p, p ∈ written raw sorted ↔ Touched raw req p) ∧
    (written raw sorted).Pairwise (· < ·) := by
  obtain ⟨h1, h2, h3, h4⟩ := sorted_facts hl hs
  constructor
  · intro p
    rw [mem_written, touched_iff he]
    constructor
    · rintro ⟨run, hr, ha, hb⟩
      obtain ⟨m, hm, hf, e⟩ := (h1 (p - raw.offset)).1 ((h2 _).2 ⟨run, hr, by omega, by omega⟩)
      exact ⟨m, hm, hf, by omega⟩
    · rintro ⟨m, hm, hf, e⟩
      obtain ⟨run, hr, ha, hb⟩ := (h2 _).1 ((h1 _).2 ⟨m, hm, hf, rfl⟩)
      exact ⟨run, hr, by omega, by omega⟩
  · unfold written
    rw [List.flatMap_def, List.pairwise_flatten]
    constructor
    · intro l hl
      obtain ⟨run, _, rfl⟩ := List.mem_map.1 hl
      exact List.pairwise_lt_range'
    · rw [List.pairwise_map]
      refine h3.imp fun {a b} hab x hx y hy => ?_
      unfold devPages at hx hy
      rw [List.mem_range'_1] at hx hy
      omega

/-- Each write covers only pages that hold an entry of a marked line, at least one, and between two
writes there is a page that is not written: the writes are the contiguous runs. -/
theorem writes_are_runs {raw : Raw} (he : 0 < raw.entriesInPage) {req : Req} (hl : Lines32 req)
    {sorted : List Nat} (hs : SortOf (addPages raw req.map) sorted) :
    (∀ run ∈ runs sorted, 0 < run.2 ∧
      ∀ i, i < run.2 → Touched raw req (raw.offset + run.1 + i)) ∧
    (runs sorted).Pairwise (fun a b => a.1 + a.2 < b.1) ∧
    (∀ run ∈ runs sorted, ¬ Touched raw req (raw.offset + run.1 + run.2) ∧
      (0 < run.1 → ¬ Touched raw req (raw.offset + run.1 - 1))) := by
  obtain ⟨h1, h2, h3, h4⟩ := sorted_facts hl hs
  have hw := (pages_exact he hl hs).1
  have hpos := fun run hr => (h4 run hr).1
  have htri : ∀ a ∈ runs sorted, ∀ b ∈ runs sorted, a = b ∨ a.1 + a.2 < b.1 ∨ b.1 + b.2 < a.1 := by
    have : ∀ (l : List (Nat × Nat)), l.Pairwise (fun a b => a.1 + a.2 < b.1) →
        ∀ a ∈ l, ∀ b ∈ l, a = b ∨ a.1 + a.2 < b.1 ∨ b.1 + b.2 < a.1 := by
      intro l
      induction l with
      | nil => intro _ a ha; simp at ha
      | cons x r ih =>
        intro hp a ha b hb
        obtain ⟨hx, hr⟩ := List.pairwise_cons.1 hp
        rcases List.mem_cons.1 ha with ea | ea <;> rcases List.mem_cons.1 hb with eb | eb
        · exact .inl (ea.trans eb.symm)
        · subst ea; exact .inr (.inl (hx _ eb))
        · subst eb; exact .inr (.inr (hx _ ea))
        · exact ih hr a ea b eb
    exact this _ h3
  refine ⟨fun run hr => ⟨hpos run hr, fun i hi => (hw _).1 ?_⟩, h3, fun run hr => ⟨fun ht => ?_, ?_⟩⟩
  · exact mem_written.2 ⟨run, hr, by omega, by omega⟩
  · obtain ⟨b, hb, h5, h6⟩ := mem_written.1 ((hw _).2 ht)
    have := hpos run hr
    rcases htri run hr b hb with e | e | e
    · subst e; omega
    · omega
    · omega
  · intro h0 ht
    obtain ⟨b, hb, h5, h6⟩ := mem_written.1 ((hw _).2 ht)
    have := hpos run hr
    have := hpos b hb
    rcases htri run hr b hb with e | e | e
    · subst e; omega
    · omega
    · omega

/-- The lines marked: those whose state became clean or dirty; nothing else of the map changes. -/
theorem marked_exact (marks : List (Nat × To)) : ∀ (req : Req),
    (marks.foldl (fun r x => flushMark r x.1 x.2) req).map.length = req.map.length ∧
    (∀ (i : Nat) (m : MapInfo), req.map[i]? = some m →
      (marks.foldl (fun r x => flushMark r x.1 x.2) req).map[i]? =
        some ⟨m.coll, m.flush || marks.any fun x => x.1 == i && (x.2 == .dirty || x.2 == .clean)⟩) ∧
    (marks.foldl (fun r x => flushMark r x.1 x.2) req).flushMeta =
      (req.flushMeta || marks.any fun x => x.2 == .dirty || x.2 == .clean) := by
  induction marks with
  | nil => intro req; refine ⟨rfl, fun i m h => ?_, ?_⟩ <;> simp_all
  | cons x r ih =>
    intro req
    obtain ⟨h1, h2, h3⟩ := ih (flushMark req x.1 x.2)
    simp only [List.foldl_cons]
    by_cases hc : x.2 = .dirty ∨ x.2 = .clean
    · have hf : flushMark req x.1 x.2 =
          { map := req.map.modify x.1 fun m => { m with flush := true }, flushMeta := true } := by
        unfold flushMark; rw [if_pos hc]
      have hb : (x.2 == To.dirty || x.2 == To.clean) = true := by simpa using hc
      refine ⟨?_, ?_, ?_⟩
      · rw [h1, hf]; simp
      · intro i m hm
        have : (flushMark req x.1 x.2).map[i]? = some ⟨m.coll, m.flush || x.1 == i⟩ := by
          rw [hf]
          simp only [List.getElem?_modify, hm]
          by_cases e : x.1 = i
          · simp [e]
          · rw [beq_eq_false_iff_ne.2 e, Bool.or_false]
            show some (if x.1 = i then _ else m) = _
            rw [if_neg e]
        rw [h2 i _ this]
        simp only [List.any_cons, hb, Bool.and_true, Bool.or_assoc]
      · rw [h3, hf]
        simp only [List.any_cons, hb, Bool.true_or, Bool.or_true]
    · have hf : flushMark req x.1 x.2 = req := by unfold flushMark; rw [if_neg hc]
      have hb : (x.2 == To.dirty || x.2 == To.clean) = false := by
        rw [Bool.eq_false_iff]; intro h; exact hc (by simpa using h)
      rw [hf] at h1 h2 h3
      rw [hf]
      refine ⟨h1, fun i m hm => ?_, ?_⟩
      · rw [h2 i m hm]
        simp only [List.any_cons, hb, Bool.and_false, Bool.false_or]
      · rw [h3]
        simp only [List.any_cons, hb, Bool.false_or]

/-- After the writes the device holds the entry of every marked line; pages without one are as they
were. -/
theorem device_current {α : Type} {raw : Raw} (he : 0 < raw.entriesInPage) {req : Req}
    (hl : Lines32 req) {sorted : List Nat} (hs : SortOf (addPages raw req.map) sorted)
    (mem : Nat → α) (dev : Nat → Nat → Option α) :
    (∀ m ∈ req.map, m.flush = true →
      write raw mem dev (written raw sorted) (raw.offset + m.coll / raw.entriesInPage)
        (m.coll % raw.entriesInPage) = some (mem m.coll)) ∧
    (∀ p, ¬ Touched raw req p → write raw mem dev (written raw sorted) p = dev p) := by
  have hw := (pages_exact he hl hs).1
  constructor
  · intro m hm hf
    have hin := (hw _).2 ((touched_iff he).2 ⟨m, hm, hf, rfl⟩)
    unfold write fill
    rw [if_pos hin, if_pos (Nat.mod_lt _ he), Nat.add_sub_cancel_left, Nat.div_add_mod']
  · intro p hp
    unfold write
    rw [if_neg fun h => hp ((hw p).1 h)]

/-- A write changes no entry to anything but its value in memory. -/
theorem device_only_memory {α : Type} (raw : Raw) (mem : Nat → α) (dev : Nat → Nat → Option α)
    (ps : List Nat) (line : Nat)
    (h : dev (raw.offset + line / raw.entriesInPage) (line % raw.entriesInPage) = some (mem line))
    (he : 0 < raw.entriesInPage) :
    write raw mem dev ps (raw.offset + line / raw.entriesInPage) (line % raw.entriesInPage) =
      some (mem line) := by
  unfold write
  split
  · unfold fill
    rw [if_pos (Nat.mod_lt _ he), Nat.add_sub_cancel_left, Nat.div_add_mod']
  · exact h

/-! ## The course of a flush -/

/-- The errors with which transfers finished, in order. -/
def errors : List Op → List Int
  | [] => []
  | .finish _ e :: r => e :: errors r
  | _ :: r => errors r

/-- A transfer could not be started. -/
def Refused (ops : List Op) : Prop := ∃ e, e ≠ 0 ∧ Op.issue e ∈ ops

theorem errors_snoc (ops : List Op) (op : Op) :
    errors (ops ++ [op]) = errors ops ++ errors [op] := by
  induction ops with
  | nil => rfl
  | cons o r ih =>
    cases o <;> simp only [List.cons_append, errors, ih]

structure Inv (sorted : List Nat) (ops : List Op) (st : State) : Prop where
  cnt : st.cnt = (if st.pc = .done then 0 else 1) + st.flying.length + (if st.result = 0 then 0 else 1)
  calls : (st.cnt = 0 → st.calls = [st.error]) ∧ (st.cnt ≠ 0 → st.calls = [])
  perm : (st.finished ++ (st.flying ++ st.todo)).Perm (runs sorted)
  todo : st.pc ≠ .loop → st.result = 0 → st.todo = []
  loop : st.pc = .loop → st.result = 0
  refused : st.result ≠ 0 ↔ Refused ops
  error : st.result = 0 → (st.error ≠ 0 ↔ ∃ e ∈ errors ops, e ≠ 0)

theorem ioComplete_calls {st : State} (hc : st.calls = []) (e : Int) :
    (ioComplete st e).cnt = st.cnt - 1 ∧
    ((ioComplete st e).cnt = 0 → (ioComplete st e).calls = [(ioComplete st e).error]) ∧
    ((ioComplete st e).cnt ≠ 0 → (ioComplete st e).calls = []) ∧
    (ioComplete st e).error = (if e ≠ 0 then e else st.error) ∧ (ioComplete st e).pc = st.pc ∧
    (ioComplete st e).todo = st.todo ∧ (ioComplete st e).flying = st.flying ∧
    (ioComplete st e).finished = st.finished ∧ (ioComplete st e).result = st.result := by
  unfold ioComplete
  by_cases he : e ≠ 0 <;> by_cases h0 : st.cnt - 1 = 0 <;> simp [he, h0, hc]

theorem inv_run {sorted : List Nat} {ops : List Op} {st : State} (r : Run (start sorted) ops st) :
    Inv sorted ops st := by
  induction r with
  | nil =>
    refine ⟨by simp [start], ⟨by simp [start], fun _ => rfl⟩, ?_, fun h => absurd rfl h, fun _ => rfl, ?_, ?_⟩
    · simp [start]
    · simp [start, Refused]
    · simp [start, errors]
  | snoc r e ih =>
    have h := ih
    rename_i st st' ops op
    obtain ⟨h1, h2, h3, h4, hlp, h5, h6⟩ := h
    have hpos : ∀ {run}, run ∈ st.flying → 0 < st.cnt := by
      intro run hr
      have := List.length_pos_of_mem hr
      omega
    cases op with
    | issue e' =>
      simp only [exec] at e
      cases hpc : st.pc with
      | last => rw [hpc] at e; simp at e
      | done => rw [hpc] at e; simp at e
      | loop =>
        rw [hpc] at e
        cases ht : st.todo with
        | nil => rw [ht] at e; simp at e
        | cons run rest =>
          rw [ht] at e
          simp only at e
          have hc0 : st.cnt ≠ 0 := by rw [hpc] at h1; simp at h1; omega
          have hres := hlp hpc
          have hcalls := h2.2 hc0
          by_cases he : e' = 0
          · rw [if_pos he] at e
            cases e
            subst he
            refine ⟨?_, ⟨?_, fun _ => hcalls⟩, ?_, fun hne => absurd rfl hne, fun _ => hres, ?_, ?_⟩
            · simp only [hpc, hres, List.length_cons] at h1 ⊢
              simp at h1 ⊢
              omega
            · intro hz; simp only at hz; omega
            · refine List.Perm.trans ?_ h3
              rw [ht]
              refine List.Perm.append_left _ ?_
              simp only [List.cons_append]
              exact List.perm_middle.symm
            · show st.result ≠ 0 ↔ _
              rw [h5]
              unfold Refused
              constructor
              · rintro ⟨e, he, hm⟩; exact ⟨e, he, List.mem_append_left _ hm⟩
              · rintro ⟨e, he, hm⟩
                rcases List.mem_append.1 hm with hm | hm
                · exact ⟨e, he, hm⟩
                · simp at hm; exact absurd hm he
            · intro hr
              rw [errors_snoc]
              simpa [errors] using h6 hr
          · rw [if_neg he] at e
            cases e
            refine ⟨?_, ⟨?_, fun _ => hcalls⟩, ht ▸ h3, fun _ hr => absurd hr he, fun hp => by simp at hp, ?_,
              fun hr => absurd hr he⟩
            · simp only [hpc, hres] at h1 ⊢
              simp [he] at h1 ⊢
              omega
            · intro hz; simp only at hz; omega
            · exact ⟨fun _ => ⟨e', he, by simp⟩, fun _ => he⟩
    | leave =>
      simp only [exec] at e
      cases hpc : st.pc with
      | last => rw [hpc] at e; simp at e
      | done => rw [hpc] at e; simp at e
      | loop =>
        rw [hpc] at e
        cases ht : st.todo with
        | cons run rest => rw [ht] at e; simp at e
        | nil =>
          rw [ht] at e
          simp only [Option.some.injEq] at e
          subst e
          have hres := hlp hpc
          refine ⟨?_, h2, ?_, ?_, fun hp => by simp at hp, ?_, ?_⟩
          · rw [hpc] at h1; simpa using h1
          · exact ht ▸ h3
          · intro _ _; rfl
          · show st.result ≠ 0 ↔ _
            rw [h5]
            unfold Refused
            simp
          · intro hr
            rw [errors_snoc]
            simpa [errors] using h6 hr
    | final =>
      simp only [exec] at e
      by_cases hpc : st.pc = .last
      · rw [if_pos hpc] at e
        cases e
        have hc0 : st.cnt ≠ 0 := by rw [hpc] at h1; simp at h1; omega
        have hcalls := h2.2 hc0
        obtain ⟨k1, k2, k3, k4, k5, k6, k7, k8, k9⟩ :=
          ioComplete_calls (st := { st with pc := .done }) hcalls st.result
        refine ⟨?_, ⟨k2, k3⟩, ?_, ?_, ?_, ?_, ?_⟩
        · rw [k1, k5, k7, k9]
          rw [hpc] at h1
          simp at h1 ⊢
          omega
        · rw [k6, k7, k8]; exact h3
        · rw [k6, k9]; intro _ hr; exact h4 (by rw [hpc]; simp) hr
        · rw [k5]; intro hp; simp at hp
        · rw [k9]
          show st.result ≠ 0 ↔ _
          rw [h5]
          unfold Refused
          simp
        · rw [k9, k4]
          intro hr
          have hr : st.result = 0 := hr
          rw [if_neg (by simpa using hr), errors_snoc]
          simpa [errors] using h6 hr
      · rw [if_neg hpc] at e; cases e
    | finish run e' =>
      simp only [exec] at e
      by_cases hm : run ∈ st.flying
      · rw [if_pos hm] at e
        cases e
        have hc0 := hpos hm
        have hcalls := h2.2 (by omega)
        obtain ⟨k1, k2, k3, k4, k5, k6, k7, k8, k9⟩ :=
          ioComplete_calls (st := State.mk st.pc st.todo (st.flying.erase run) (run :: st.finished)
            st.cnt st.error st.result st.calls) hcalls e'
        refine ⟨?_, ⟨k2, k3⟩, ?_, ?_, ?_, ?_, ?_⟩
        · rw [k1, k5, k7, k9]
          simp only
          rw [List.length_erase_of_mem hm]
          have := List.length_pos_of_mem hm
          omega
        · rw [k6, k7, k8]
          refine List.Perm.trans ?_ h3
          simp only [List.cons_append]
          refine List.perm_middle.symm.trans (List.Perm.append_left _ ?_)
          rw [← List.cons_append]
          exact List.Perm.append_right _ (List.perm_cons_erase hm).symm
        · rw [k5, k6, k9]; exact h4
        · rw [k5, k9]; exact hlp
        · rw [k9]
          show st.result ≠ 0 ↔ _
          rw [h5]
          unfold Refused
          simp
        · rw [k9, k4]
          intro hr
          have hr : st.result = 0 := hr
          rw [errors_snoc]
          have h6 := h6 hr
          by_cases he : e' = 0
          · subst he
            simpa [errors] using h6
          · rw [if_pos he]
            exact ⟨fun _ => ⟨e', by simp [errors], he⟩, fun _ => he⟩
      · rw [if_neg hm] at e; cases e

/-- The request is told at most once; not before the loop is over and every transfer that was started
has finished; and then, if every transfer could be started, all pages were transferred; the error
is zero exactly if none of the transfers failed. -/
theorem told_once {sorted : List Nat} {ops : List Op} {st : State} (r : Run (start sorted) ops st) :
    st.calls.length ≤ 1 ∧
    (st.calls ≠ [] → st.pc = .done ∧ st.flying = [] ∧ st.finished.Perm (runs sorted)) ∧
    (∀ e, st.calls = [e] → (e ≠ 0 ↔ ∃ x ∈ errors ops, x ≠ 0)) := by
  have h := inv_run r
  have hz : st.calls ≠ [] → st.cnt = 0 := by
    intro hc
    by_contra h0
    exact hc (h.calls.2 h0)
  have hfacts : st.cnt = 0 → st.pc = .done ∧ st.flying = [] ∧ st.result = 0 := by
    intro h0
    have h1 := h.cnt
    rw [h0] at h1
    refine ⟨?_, ?_, ?_⟩
    · by_contra hp; rw [if_neg hp] at h1; omega
    · exact List.eq_nil_of_length_eq_zero (by omega)
    · by_contra hp; rw [if_neg hp] at h1; omega
  refine ⟨?_, ?_, ?_⟩
  · by_cases h0 : st.cnt = 0
    · rw [h.calls.1 h0]; simp
    · rw [h.calls.2 h0]; simp
  · intro hc
    obtain ⟨p, f, r⟩ := hfacts (hz hc)
    refine ⟨p, f, ?_⟩
    have hp := h.perm
    rw [f, h.todo (by rw [p]; simp) r] at hp
    simpa using hp
  · intro e he
    have h0 := hz (by rw [he]; simp)
    obtain ⟨p, f, r⟩ := hfacts h0
    have := h.calls.1 h0
    rw [he] at this
    cases this
    exact h.error r

/-- When the call has returned and all transfers have finished, the request was told, if every
transfer could be started. -/
theorem told {sorted : List Nat} {ops : List Op} {st : State} (r : Run (start sorted) ops st)
    (hp : st.pc = .done) (hf : st.flying = []) (hr : ¬ Refused ops) : st.calls.length = 1 := by
  have h := inv_run r
  have hres : st.result = 0 := by
    by_contra h0; exact hr (h.refused.1 h0)
  have h1 := h.cnt
  rw [if_pos hp, hf, if_pos hres] at h1
  rw [h.calls.1 (by simpa using h1)]
  rfl

/-- If a transfer could not be started for want of memory, the request is never told: the counter
was raised for it (`/repo/src/metadata/metadata_raw.c:619`) and nobody lowers it again. -/
theorem refused_never_told {sorted : List Nat} {ops : List Op} {st : State}
    (r : Run (start sorted) ops st) (hr : Refused ops) : st.calls = [] := by
  have h := inv_run r
  refine h.calls.2 fun h0 => ?_
  have h1 := h.cnt
  rw [h0, if_neg (h.refused.2 hr)] at h1
  omega

/-- Nothing gets stuck: until the call has returned and all transfers have finished, some step can be
taken. -/
theorem not_stuck {sorted : List Nat} {ops : List Op} {st : State} (_r : Run (start sorted) ops st)
    (h : st.pc ≠ .done ∨ st.flying ≠ []) : ∃ op, (exec st op).isSome := by
  rcases h with h | h
  · cases hpc : st.pc with
    | done => exact absurd hpc h
    | last => exact ⟨.final, by simp [exec, hpc]⟩
    | loop =>
      cases ht : st.todo with
      | nil => exact ⟨.leave, by simp [exec, hpc, ht]⟩
      | cons x r => exact ⟨.issue 0, by simp [exec, hpc, ht]⟩
  · obtain ⟨x, l, e⟩ := List.exists_cons_of_ne_nil h
    exact ⟨.finish x 0, by simp [exec, e]⟩

/-- A request with no marked line, or for which the memory is missing, is told at once; otherwise the
loop is reached with something to write. -/
theorem told_before {req : Req} (raw : Raw) (ctx tab : Bool)
    (hm : req.flushMeta = true ↔ ∃ m ∈ req.map, m.flush = true) {sorted : List Nat}
    (hs : SortOf (addPages raw req.map) sorted) :
    (∃ e, before req ctx tab = some [e] ∧ (e = 0 ↔ ∀ m ∈ req.map, m.flush = false)) ∨
    (before req ctx tab = none ∧ sorted ≠ []) := by
  unfold before
  by_cases hf : req.flushMeta = true
  · rw [if_neg (by simp [hf])]
    have hx : ¬ ∀ m ∈ req.map, m.flush = false := by
      obtain ⟨m, h1, h2⟩ := hm.1 hf
      intro h; rw [h m h1] at h2; cases h2
    by_cases hc : ctx = true
    · rw [if_neg (by simp [hc])]
      split
      · exact .inl ⟨-1, rfl, ⟨fun h => absurd h (by decide), fun h => absurd h hx⟩⟩
      · right
        refine ⟨rfl, fun h => ?_⟩
        obtain ⟨m, h1, h2⟩ := hm.1 hf
        have := hs.1.mem_iff.2 ((mem_addPages (raw := raw)).2 ⟨m, h1, h2, rfl⟩)
        rw [h] at this
        simp at this
    · rw [if_pos (by simp [hc])]
      exact .inl ⟨-1, rfl, ⟨fun h => absurd h (by decide), fun h => absurd h hx⟩⟩
  · rw [if_pos hf]
    refine .inl ⟨0, rfl, fun _ m h1 => ?_, fun _ => rfl⟩
    by_contra h2
    exact hf (hm.2 ⟨m, h1, by simpa using h2⟩)

/-! ## Examples -/

/-- Lines 700, 3, 5, 340 and 341 with 340 entries in a page; all but line 5 are marked. -/
def exReq : Req := ⟨[⟨700, true⟩, ⟨3, true⟩, ⟨5, false⟩, ⟨340, true⟩, ⟨341, true⟩, ⟨1700, true⟩], true⟩

def exRaw : Raw := ⟨340, 1000⟩

theorem exSorted : SortOf (addPages exRaw exReq.map) [0, 1, 1, 2, 5] := ⟨by decide, by decide⟩

example : Lines32 exReq := by unfold Lines32; decide

/-- Two writes: pages 1000 to 1002 and page 1005. -/
example : runs [0, 1, 1, 2, 5] = [(0, 3), (5, 1)] ∧ written exRaw [0, 1, 1, 2, 5] = [1000, 1001, 1002, 1005] :=
  by decide

example : Touched exRaw exReq 1002 :=
  (touched_iff (by decide)).2 ⟨⟨700, true⟩, by decide, rfl, by decide⟩

example : (([(0, To.dirty), (2, To.invalid), (2, To.clean)].foldl (fun r x => flushMark r x.1 x.2)
    ⟨[⟨7, false⟩, ⟨8, false⟩, ⟨9, false⟩], false⟩)) = ⟨[⟨7, true⟩, ⟨8, false⟩, ⟨9, true⟩], true⟩ := by decide

def runOps : State → List Op → Option State
  | st, [] => some st
  | st, op :: r => (exec st op).bind fun st => runOps st r

theorem run_of_runOps : ∀ {ops : List Op} {st0 st st' : State} {pre : List Op}, Run st0 pre st →
    runOps st ops = some st' → Run st0 (pre ++ ops) st'
  | [], _, _, _, _, r, e => by cases e; simpa using r
  | op :: ops, st0, st, st', pre, r, e => by
    obtain ⟨s, e1, e2⟩ := Option.bind_eq_some_iff.1 e
    have := run_of_runOps (r.snoc e1) e2
    simpa using this

/-- A run: the first transfer fails before the second is started. -/
example : Run (start [0, 1, 1, 2, 5]) [.issue 0, .finish (0, 3) (-5), .issue 0, .leave, .final, .finish (5, 1) 0]
    ⟨.done, [], [], [(5, 1), (0, 3)], 0, -5, 0, [-5]⟩ :=
  run_of_runOps (pre := []) (.nil _) (by decide)

/-- The second transfer cannot be started: no call, though nothing is left to do. -/
example : Run (start [0, 1, 1, 2, 5]) [.issue 0, .issue (-1), .final, .finish (0, 3) 0]
    ⟨.done, [(5, 1)], [], [(0, 3)], 1, -1, -1, []⟩ ∧
    Refused [.issue 0, .issue (-1), .final, .finish (0, 3) 0] :=
  ⟨run_of_runOps (pre := []) (.nil _) (by decide), ⟨-1, by decide, by simp⟩⟩

end Verif.MetaFlush
