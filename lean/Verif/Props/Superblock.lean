import Verif.Model.Superblock

/-! Property C14: configuration saves are atomic with respect to power failures. -/

namespace Verif.Superblock

variable {B G H : Type} [DecidableEq H]

/-- No two contents that occur have the same checksum. (`B` and `G` may be taken to be just the
contents that occur in a given run, torn ones included.) -/
structure NoCollision (e : Env B G H) : Prop where
  body : ∀ i j x y, e.crcB i x = e.crcB j y → i = j ∧ x = y
  seg : ∀ k x y, e.crcS k x = e.crcS k y → x = y

/-- The checksums of `v` are those of configuration `c` at some index. -/
def Of (e : Env B G H) (v : Sb B H) (c : Cfg B G) : Prop :=
  ∃ i, v.cs0 = e.crcB i c.body ∧ v.cs = fun k => e.crcS k (c.seg k)

/-- Invariant for safety. -/
structure Safe (e : Env B G H) (s : State B G H) : Prop where
  vers : ∀ v ∈ s.sb :: s.vers, ∃ c ∈ s.cands, Of e v c
  cur : ∀ c, (∃ k, s.phase = .seg k c) ∨ s.phase = .flush1 c ∨ s.phase = .sbw c ∨
    s.phase = .flush2 c → c ∈ s.cands
  new : ∀ c, s.phase = .flush2 c → s.sb = mkSb e s.idx c
  down : s.phase = .down → s.vers = [s.sb]

omit [DecidableEq H] in
theorem of_mk (e : Env B G H) (i : Nat) (c : Cfg B G) : Of e (mkSb e i c) c := ⟨i, rfl, rfl⟩

omit [DecidableEq H] in
theorem of_mix {e : Env B G H} {torn : Bool} {vs : List (Sb B H)} {x : Sb B H} {cs : List (Cfg B G)}
    (h : ∀ v ∈ vs, ∃ c ∈ cs, Of e v c) (hm : Mix torn vs x) : ∃ c ∈ cs, Of e x c := by
  obtain ⟨v, hv, h1, h2, _⟩ := hm
  obtain ⟨c, hc, i, h3, h4⟩ := h v hv
  exact ⟨c, hc, i, h1.trans h3, h2.trans h4⟩

theorem load_eq {e : Env B G H} (hn : NoCollision e) {s : State B G H} {c c' : Cfg B G}
    (hl : load e s = some c) (ho : Of e s.sb c') : c = c' := by
  unfold load at hl
  split at hl
  · next q =>
    obtain ⟨q1, q2, q3, q4⟩ := q
    obtain ⟨i, h1, h2⟩ := ho
    have hb := (hn.body _ _ _ _ (q1.trans h1)).2
    have hs : s.slot s.sb.idx = c'.seg := by
      funext k
      have := q3 k
      rw [h2] at this
      exact hn.seg k _ _ this
    have : c = ⟨s.sb.body, s.slot s.sb.idx⟩ := by simpa using hl.symm
    rw [this, hb, hs]
  · cases hl

theorem safe_step {e : Env B G H} (hn : NoCollision e) {errs torn : Bool} {s t : State B G H}
    (h : Safe e s) (st : Step e errs torn s t) : Safe e t := by
  have hv := h.vers
  cases st with
  | save c hp hok =>
    refine ⟨fun v hv => ?_, ?_, by simp, by simp⟩
    · obtain ⟨c', a, b⟩ := h.vers v hv
      exact ⟨c', List.mem_cons_of_mem _ a, b⟩
    · intro c' hc
      simp at hc
      simp [hc]
  | segOk k c hk hp =>
    refine ⟨hv, ?_, by simp, by simp⟩
    intro c' hc
    simp at hc
    exact h.cur c' (.inl ⟨k, by rw [hp, hc]⟩)
  | segEnd c hp =>
    refine ⟨hv, ?_, by simp, by simp⟩
    intro c' hc
    simp at hc
    exact h.cur c' (.inl ⟨3, by rw [hp, hc]⟩)
  | flush1 c hp =>
    refine ⟨?_, ?_, by simp, by simp⟩
    · intro v hm
      have : v = s.sb := by simpa using hm
      exact this ▸ hv s.sb (by simp)
    · intro c' hc
      simp at hc
      exact h.cur c' (.inr (.inl (by rw [hp, hc])))
  | sbOk c hp =>
    have hc : c ∈ s.cands := h.cur c (.inr (.inr (.inl hp)))
    refine ⟨?_, ?_, ?_, by simp⟩
    · intro v hm
      simp only [List.mem_cons] at hm
      rcases hm with e1 | e1 | hm
      · exact ⟨c, hc, e1 ▸ of_mk e _ c⟩
      · exact ⟨c, hc, e1 ▸ of_mk e _ c⟩
      · exact hv v (List.mem_cons_of_mem _ hm)
    · intro c' hc'
      simp at hc'
      exact hc' ▸ hc
    · intro c' hc'
      simp at hc'
      rw [hc']
  | flush2 c hp =>
    refine ⟨?_, by simp, by simp, by simp⟩
    intro v hm
    have : v = s.sb := by simpa using hm
    rw [this, h.new c hp]
    exact ⟨c, by simp, of_mk e _ c⟩
  | segErr k c hk g he hp => exact ⟨hv, by simp, by simp, by simp⟩
  | sbErr c x he hp hm =>
    have hc : c ∈ s.cands := h.cur c (.inr (.inr (.inl hp)))
    have h1 : ∀ v ∈ mkSb e s.idx c :: s.vers, ∃ c ∈ s.cands, Of e v c := by
      intro v hv1
      rcases List.mem_cons.1 hv1 with e1 | e1
      · exact ⟨c, hc, e1 ▸ of_mk e _ c⟩
      · exact hv v (List.mem_cons_of_mem _ e1)
    have hx := of_mix h1 hm
    refine ⟨?_, by simp, by simp, by simp⟩
    intro v hv2
    simp only [List.mem_cons] at hv2
    rcases hv2 with e1 | e1 | e1 | e1
    · exact e1 ▸ hx
    · exact ⟨c, hc, e1 ▸ of_mk e _ c⟩
    · exact e1 ▸ hx
    · exact hv v (List.mem_cons_of_mem _ e1)
  | flushErr c x d he hp hm =>
    have hx := of_mix (fun v hv1 => hv v (List.mem_cons_of_mem _ hv1)) hm.2
    refine ⟨?_, by simp, by simp, by simp⟩
    intro v hv2
    simp only [List.mem_cons] at hv2
    rcases hv2 with e1 | e1 | e1
    · exact e1 ▸ hx
    · exact e1 ▸ hx
    · exact hv v (List.mem_cons_of_mem _ e1)
  | crash x d hm =>
    have hx := of_mix (fun v hv1 => hv v (List.mem_cons_of_mem _ hv1)) hm.2
    refine ⟨?_, by simp, by simp, by simp⟩
    intro v hv2
    have : v = x := by simpa using hv2
    exact this ▸ hx
  | load c hp hl =>
    obtain ⟨c0, hc0, ho⟩ := hv s.sb (by simp)
    have hx := load_eq hn hl ho
    subst hx
    refine ⟨?_, by simp, by simp, by simp⟩
    intro v hv2
    rw [h.down hp] at hv2
    have : v = s.sb := by simpa using hv2
    exact ⟨c, by simp, this ▸ ho⟩

omit [DecidableEq H] in
theorem safe_start (e : Env B G H) (c : Cfg B G) : Safe e (start e c) := by
  refine ⟨?_, by simp [start], by simp [start], by simp [start]⟩
  intro v hv
  have : v = mkSb e 0 c := by simpa [start] using hv
  exact ⟨c, by simp [start], this ▸ of_mk e 0 c⟩

/-- Whatever the sequence of saves, I/O errors, power failures and loads: a load that succeeds returns
exactly the configuration whose save last succeeded, or one whose save was attempted after that —
never a mixture of two configurations, and never an older one. -/
theorem loads_old_or_new {e : Env B G H} (hn : NoCollision e) {errs torn : Bool} {s : State B G H}
    {c : Cfg B G} (h : Reach (fun s => ∃ c, e.ok c = true ∧ s = start e c) (Step e errs torn) s)
    (hl : load e s = some c) : c ∈ s.cands := by
  have hs : Safe e s := Reach.inv (P := Safe e)
    (by rintro s ⟨c, -, rfl⟩; exact safe_start e c) (fun s t h st => safe_step hn h st) s h
  obtain ⟨c0, hc0, ho⟩ := hs.vers s.sb (by simp)
  exact load_eq hn hl ho ▸ hc0

/-- Invariant for durability of a completed save. -/
structure Ack (e : Env B G H) (s : State B G H) : Prop where
  seg : ∀ k c, s.phase = .seg k c → e.ok c = true ∧
    ∀ j : Fin 3, j.1 < k → s.slot (nextIdx s.idx) j = c.seg j
  flush1 : ∀ c, s.phase = .flush1 c → e.ok c = true ∧ s.slot (nextIdx s.idx) = c.seg
  sbw : ∀ c, s.phase = .sbw c → e.ok c = true ∧ s.idx ≤ 1 ∧ s.slot s.idx = c.seg
  flush2 : ∀ c, s.phase = .flush2 c → e.ok c = true ∧ s.idx ≤ 1 ∧ s.slot s.idx = c.seg ∧
    s.sb = mkSb e s.idx c
  len : 1 ≤ s.cands.length
  len2 : s.phase ≠ .idle ∧ s.phase ≠ .down → 2 ≤ s.cands.length

theorem ack_step {e : Env B G H} {errs torn : Bool} {s t : State B G H}
    (h : Ack e s) (st : Step e errs torn s t) : Ack e t := by
  have hl := h.len
  cases st with
  | save c hp hok =>
    constructor <;> simp
    · exact hok
    · omega
  | segOk k c hk hp =>
    have h2 := h.len2 (by rw [hp]; simp)
    have := h.seg k c hp
    constructor <;> simp
    · refine ⟨this.1, fun j hj => ?_⟩
      unfold setSlot
      by_cases q : j = ⟨k, hk⟩
      · simp [q]
      · have : j.1 < k := by
          have : j.1 ≠ k := fun e => q (Fin.ext e)
          omega
        simp [q]
        grind
    · omega
    · exact h2
  | segEnd c hp =>
    have h2 := h.len2 (by rw [hp]; simp)
    have := h.seg 3 c hp
    constructor <;> simp
    · exact ⟨this.1, funext fun j => this.2 j j.2⟩
    · omega
    · exact h2
  | flush1 c hp =>
    have h2 := h.len2 (by rw [hp]; simp)
    have := h.flush1 c hp
    constructor <;> simp
    · exact ⟨this.1, by unfold nextIdx; omega, this.2⟩
    · omega
    · exact h2
  | sbOk c hp =>
    have h2 := h.len2 (by rw [hp]; simp)
    have := h.sbw c hp
    constructor <;> simp
    · exact this
    · omega
    · exact h2
  | flush2 c hp => constructor <;> simp
  | segErr k c hk g he hp => constructor <;> simp; omega
  | sbErr c x he hp hm => constructor <;> simp; omega
  | flushErr c x d he hp hm => constructor <;> simp; omega
  | crash x d hm => constructor <;> simp; omega
  | load c hp hl => constructor <;> simp

theorem ack_reach {e : Env B G H} {errs torn : Bool} {s : State B G H}
    (h : Reach (fun s => ∃ c, e.ok c = true ∧ s = start e c) (Step e errs torn) s) : Ack e s :=
  Reach.inv (P := Ack e) (by rintro s ⟨c, -, rfl⟩; constructor <;> simp [start])
    (fun _ _ h st => ack_step h st) s h

theorem load_mk {e : Env B G H} {s : State B G H} {i : Nat} {c : Cfg B G}
    (hi : i ≤ 1) (hok : e.ok c = true) (hs : s.slot i = c.seg) (hb : s.sb = mkSb e i c) :
    load e s = some c := by
  unfold load
  rw [hb]
  simp [mkSb, hs, hi, hok]

/-- Durability: when a save of `c` reports success (`s` to `t`), a power failure right after it (`t` to
`u`) followed by a load returns `c` — even after earlier I/O errors and power failures. -/
theorem completed_save_loads {e : Env B G H} {errs torn : Bool} {s t u : State B G H} {c c' : Cfg B G}
    (h : Reach (fun s => ∃ c, e.ok c = true ∧ s = start e c) (Step e errs torn) s)
    (hp : s.phase = .flush2 c') (st : Step e errs torn s t) (hi : t.phase = .idle)
    (hc : t.cands = [c])
    (su : Step e errs torn t u) (hu : u.phase = .down) : load e u = some c := by
  have ha := ack_reach h
  have h2 := ha.flush2 c' hp
  have hl := ha.len2 (by rw [hp]; simp)
  cases st with
  | flush2 c1 hp1 =>
    have e1 : c1 = c := by simpa using hc
    have e2 : c' = c1 := by rw [hp] at hp1; simpa using hp1
    subst e1; subst e2
    cases su with
    | crash x d hm =>
      obtain ⟨q1, v, q2, -, -, q3⟩ := hm
      have e3 : v = s.sb := by simpa using q2
      have e4 : x = v := q3 (by simp)
      subst e4; subst e3
      refine load_mk h2.2.1 h2.1 ?_ h2.2.2.2
      have : d s.idx = s.slot s.idx := funext fun k => q1 _ _ rfl
      exact this.trans h2.2.2.1
    | _ => simp_all
  | flushErr c x d he hp hm => simp only at hc; rw [hc] at hl; simp at hl
  | segErr k c hk g he hp' => simp [hp] at hp'
  | sbErr c x he hp' hm => simp [hp] at hp'
  | load c hp' hl => simp [hp] at hp'
  | _ => simp at hi

/-- Superblock version `v` is backed by flushed segments of a configuration in `cands`. -/
def Good (e : Env B G H) (s : State B G H) (v : Sb B H) : Prop :=
  ∃ c ∈ s.cands, v = mkSb e v.idx c ∧ v.idx ≤ 1 ∧ e.ok c = true ∧
    ∀ k, s.slot v.idx k = c.seg k ∧ s.dirty v.idx k = false

/-- Invariant for availability: without I/O errors the index in memory is the one on the device, and
a save in progress only touches the other place. -/
structure Avail (e : Env B G H) (s : State B G H) : Prop where
  good : ∀ v ∈ s.vers, Good e s v
  le : s.idx ≤ 1
  mem : s.sb ∈ s.vers
  old : (∀ c, s.phase ≠ .flush2 c) → s.vers = [s.sb]
  idx : s.phase = .idle ∨ (∃ k c, s.phase = .seg k c) ∨ (∃ c, s.phase = .flush1 c) → s.sb.idx = s.idx
  sbw : ∀ c, s.phase = .sbw c → (∀ i k, s.dirty i k = false) ∧ c ∈ s.cands
  flush2 : ∀ c, s.phase = .flush2 c → s.sb = mkSb e s.idx c
  cur : ∀ c, (∃ k, s.phase = .seg k c) ∨ s.phase = .flush1 c → c ∈ s.cands

theorem good_mono {e : Env B G H} {s t : State B G H} {v : Sb B H} (h : Good e s v)
    (hc : ∀ c ∈ s.cands, c ∈ t.cands) (hs : ∀ k, t.slot v.idx k = s.slot v.idx k)
    (hd : ∀ k, s.dirty v.idx k = false → t.dirty v.idx k = false) : Good e t v := by
  obtain ⟨c, h1, h2, h3, h4, h5⟩ := h
  exact ⟨c, hc c h1, h2, h3, h4, fun k => ⟨(hs k).trans (h5 k).1, hd k (h5 k).2⟩⟩

theorem avail_step {e : Env B G H} {s t : State B G H}
    (h : Avail e s) (ha : Ack e s) (st : Step e false false s t) : Avail e t := by
  have hle := h.le
  have hmem := h.mem
  cases st with
  | save c hp hok =>
    have hv := h.old (by rw [hp]; simp)
    have hi := h.idx (.inl hp)
    constructor <;> simp
    · intro v hv
      exact good_mono (h.good v hv) (fun c hc => by simp [hc]) (fun _ => rfl) (fun _ => id)
    · exact hle
    · exact hmem
    · exact hv
    · exact hi
  | segOk k c hk hp =>
    have hv := h.old (by rw [hp]; simp)
    have hi := h.idx (.inr (.inl ⟨k, c, hp⟩))
    have hn : s.idx ≠ nextIdx s.idx := by unfold nextIdx; omega
    constructor <;> simp
    · intro v hv1
      have e1 : v = s.sb := by rw [hv] at hv1; simpa using hv1
      subst e1
      exact good_mono (h.good _ hv1) (fun c hc => hc)
        (fun k => by simp [setSlot, hi, hn]) (fun k => by simp [setDirty, hi, hn])
    · exact hle
    · exact hmem
    · exact hv
    · exact hi
    · exact h.cur c (.inl ⟨k, hp⟩)
  | segEnd c hp =>
    have hv := h.old (by rw [hp]; simp)
    have hi := h.idx (.inr (.inl ⟨3, c, hp⟩))
    constructor <;> simp
    · intro v hv
      exact good_mono (h.good v hv) (fun c hc => hc) (fun _ => rfl) (fun _ => id)
    · exact hle
    · exact hmem
    · exact hv
    · exact hi
    · exact h.cur c (.inl ⟨3, hp⟩)
  | flush1 c hp =>
    have hv := h.old (by rw [hp]; simp)
    constructor <;> simp
    · exact good_mono (h.good _ hmem) (fun c hc => hc) (fun _ => rfl) (fun _ _ => rfl)
    · unfold nextIdx; omega
    · exact h.cur c (.inr hp)
  | sbOk c hp =>
    have hb := h.sbw c hp
    have h2 := ha.sbw c hp
    constructor <;> simp
    · refine ⟨⟨c, hb.2, rfl, h2.2.1, h2.1, fun k => ⟨?_, hb.1 _ k⟩⟩, fun v hv => ?_⟩
      · exact congrFun h2.2.2 k
      · exact good_mono (h.good v hv) (fun c hc => hc) (fun _ => rfl) (fun _ => id)
    · exact hle
  | flush2 c hp =>
    have h2 := ha.flush2 c hp
    have h3 := h.flush2 c hp
    constructor <;> simp
    · refine ⟨c, by simp, ?_, ?_, h2.1, fun k => ⟨?_, rfl⟩⟩
      · rw [h3]; rfl
      · rw [h3]; exact hle
      · rw [h3]; exact congrFun h2.2.2.1 k
    · exact hle
    · rw [h3]; rfl
  | segErr k c hk g he hp => cases he
  | sbErr c x he hp hm => cases he
  | flushErr c x d he hp hm => cases he
  | crash x d hm =>
    obtain ⟨q1, v, q2, -, -, q3⟩ := hm
    have e4 : x = v := q3 (by simp)
    subst e4
    obtain ⟨c, h1, h2, h3, h4, h5⟩ := h.good x q2
    constructor <;> simp
    · exact ⟨c, h1, h2, h3, h4, fun k => ⟨(q1 _ _ (h5 k).2).trans (h5 k).1, rfl⟩⟩
    · exact hle
  | load c hp hl =>
    have hv := h.old (by rw [hp]; simp)
    obtain ⟨c', h1, h2, h3, h4, h5⟩ := h.good _ hmem
    have e1 : load e s = some c' := load_mk h3 h4 (funext fun k => (h5 k).1) h2
    have e2 : c = c' := by rw [e1] at hl; simpa using hl.symm
    subst e2
    constructor <;> simp
    · rw [hv]
      simp
      exact ⟨c, by simp, h2, h3, h4, h5⟩
    · exact h3
    · exact hmem
    · exact hv

theorem avail_reach {e : Env B G H} {s : State B G H}
    (h : Reach (fun s => ∃ c, e.ok c = true ∧ s = start e c) (Step e false false) s) :
    Avail e s := by
  refine (Reach.inv (P := fun s => Avail e s ∧ Ack e s) ?_ ?_ s h).1
  · rintro s ⟨c, hok, rfl⟩
    refine ⟨?_, ack_reach (errs := false) (torn := false) (.init ⟨c, hok, rfl⟩)⟩
    constructor <;> simp [start, mkSb]
    exact ⟨c, by simp, rfl, by simp, hok, by simp⟩
  · rintro s t ⟨h1, h2⟩ st
    exact ⟨avail_step h1 h2 st, ack_step h2 st⟩

/-- Without I/O errors, and if the device writes the superblock as a unit, a load after a power failure
at any point — also in a save, also repeatedly — succeeds. (By `loads_old_or_new` it then gives the old
or the new configuration; by `two_configurations` there are just these two.) -/
theorem load_succeeds {e : Env B G H} {s : State B G H}
    (h : Reach (fun s => ∃ c, e.ok c = true ∧ s = start e c) (Step e false false) s)
    (hp : s.phase = .down) : ∃ c ∈ s.cands, load e s = some c := by
  obtain ⟨c', h1, h2, h3, h4, h5⟩ := (avail_reach h).good _ (avail_reach h).mem
  exact ⟨c', h1, load_mk h3 h4 (funext fun k => (h5 k).1) h2⟩

/-- Without I/O errors there are never more than two candidates: the configuration whose save last
succeeded and the one being saved. -/
theorem two_configurations {e : Env B G H} {torn : Bool} {s : State B G H}
    (h : Reach (fun s => ∃ c, e.ok c = true ∧ s = start e c) (Step e false torn) s) :
    s.cands.length ≤ 2 := by
  refine (Reach.inv (P := fun s => s.cands.length ≤ 2 ∧ (s.phase = .idle → s.cands.length ≤ 1))
    ?_ ?_ s h).1
  · rintro s ⟨c, -, rfl⟩
    simp [start]
  · rintro s t ⟨h1, h2⟩ st
    cases st <;> simp_all <;> omega

/-! ### Concrete runs -/

/-- Checksums that keep everything; every configuration is valid. -/
def env0 : Env Nat Nat (Nat × Nat) := ⟨fun i x => (i, x), fun k x => (k, x), fun _ => true⟩

example : NoCollision env0 :=
  ⟨fun i j x y h => by simpa [env0] using h, fun k x y h => by simpa [env0] using h⟩

/-- Three configurations. -/
def c0 : Cfg Nat Nat := ⟨10, fun _ => 11⟩
def c1 : Cfg Nat Nat := ⟨20, fun _ => 21⟩
def c2 : Cfg Nat Nat := ⟨30, fun _ => 31⟩

/-- A completed save followed by a power failure: the new configuration is loaded. -/
example : ∃ s, Reach (fun s => ∃ c, env0.ok c = true ∧ s = start env0 c) (Step env0 false false) s ∧
    s.phase = .down ∧ load env0 s = some c1 := by
  refine ⟨_, .step (.step (.step (.step (.step (.step (.step (.step (.step (.init ⟨c0, rfl, rfl⟩)
      (.save _ c1 rfl rfl)) (.segOk _ 0 c1 (by decide) rfl)) (.segOk _ 1 c1 (by decide) rfl))
      (.segOk _ 2 c1 (by decide) rfl)) (.segEnd _ c1 rfl)) (.flush1 _ c1 rfl)) (.sbOk _ c1 rfl))
      (.flush2 _ c1 rfl)) (.crash _ _ _
        ⟨fun _ _ _ => rfl, _, List.mem_cons_self, rfl, rfl, fun _ => rfl⟩), rfl,
    load_mk (i := 1) (by decide) rfl ?_ rfl⟩
  funext k
  match k with
  | 0 => rfl
  | 1 => rfl
  | 2 => rfl

/-- A power failure after the superblock was written but not flushed, the write being lost: the old
configuration is loaded although the new one was written out in full. -/
example : ∃ s, Reach (fun s => ∃ c, env0.ok c = true ∧ s = start env0 c) (Step env0 false false) s ∧
    s.phase = .down ∧ s.cands = [c1, c0] ∧ load env0 s = some c0 := by
  refine ⟨_, .step (.step (.step (.step (.step (.step (.step (.step (.init ⟨c0, rfl, rfl⟩)
      (.save _ c1 rfl rfl)) (.segOk _ 0 c1 (by decide) rfl)) (.segOk _ 1 c1 (by decide) rfl))
      (.segOk _ 2 c1 (by decide) rfl)) (.segEnd _ c1 rfl)) (.flush1 _ c1 rfl)) (.sbOk _ c1 rfl))
      (.crash _ _ _ ⟨fun _ _ _ => rfl, mkSb env0 0 c0,
        List.mem_cons_of_mem _ List.mem_cons_self, rfl, rfl, fun _ => rfl⟩), rfl, rfl,
    load_mk (i := 0) (by decide) rfl rfl rfl⟩

/-- The superblock write is torn: new contents with the old checksums. The load fails. -/
example : ∃ s, Reach (fun s => ∃ c, env0.ok c = true ∧ s = start env0 c) (Step env0 false true) s ∧
    s.phase = .down ∧ load env0 s = none := by
  refine ⟨_, .step (.step (.step (.step (.step (.step (.step (.step (.init ⟨c0, rfl, rfl⟩)
      (.save _ c1 rfl rfl)) (.segOk _ 0 c1 (by decide) rfl)) (.segOk _ 1 c1 (by decide) rfl))
      (.segOk _ 2 c1 (by decide) rfl)) (.segEnd _ c1 rfl)) (.flush1 _ c1 rfl)) (.sbOk _ c1 rfl))
      (.crash _ ⟨0, 20, (0, 10), (mkSb env0 0 c0).cs⟩ _
        ⟨fun _ _ _ => rfl, mkSb env0 0 c0, List.mem_cons_of_mem _ List.mem_cons_self, rfl, rfl,
          fun h => by simp [start] at h⟩), rfl,
    by simp [load, env0]⟩

/-- What cannot be had: after an I/O error on a segment write `flapping_idx` is stepped back although it
had not been stepped forward (`/repo/src/metadata/metadata_superblock.c:480-484`), so the next save
overwrites the segments in use. A power failure in that save then leaves nothing that loads, although
the configuration `c0` was saved successfully and the superblock was never written again. -/
theorem both_lost : ∃ s, Reach (fun s => ∃ c, env0.ok c = true ∧ s = start env0 c)
    (Step env0 true false) s ∧ s.phase = .down ∧ c0 ∈ s.cands ∧ s.sb = mkSb env0 0 c0 ∧
    load env0 s = none := by
  refine ⟨_, .step (.step (.step (.step (.step (.init ⟨c0, rfl, rfl⟩)
      (.save _ c1 rfl rfl)) (.segErr _ 0 c1 (by decide) 7 rfl rfl))
      (.save _ c2 rfl rfl)) (.segOk _ 0 c2 (by decide) rfl))
      (.crash _ _ _ ⟨fun _ _ _ => rfl, mkSb env0 0 c0, List.mem_cons_self, rfl, rfl, fun _ => rfl⟩), rfl, ?_,
    rfl, ?_⟩
  · simp [start]
  · unfold load
    rw [if_neg]
    rintro ⟨-, -, h, -⟩
    have := h 0
    simp [start, env0, mkSb, setSlot, nextIdx, prevIdx, c0, c2] at this

end Verif.Superblock
