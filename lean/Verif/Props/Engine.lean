import Verif.Lemma.EngineDiscard

/-!
# C01: reads return the last acknowledged write

The system `Step` runs next to the monitor `Mon`, which sees only the events of the
client interface.  The theorem says that every read that completes returns, in every
sector, a value which the monitor permits.
-/

namespace Verif.Engine
open Verif.EngineSpec
variable {D : Type}

/-- The state after starting with an empty cache over a core volume holding `core`:
nothing is mapped, valid or dirty, in RAM and on the cache device, and no request is
active. -/
structure Init (s : St D) (m : Mon D) : Prop where
  map : ∀ l, s.map l = none
  valid : ∀ l t, s.valid l t = false
  dirty : ∀ l t, s.dirty l t = false
  ddirty : ∀ l t, s.ddirty l t = false
  req : ∀ i, (s.req i) = (s.req i).done
  wr : ∀ i c t, m.wr i c t = false
  rd : ∀ i c t, m.rd i c t = false
  ok : ∀ c t v, m.ok c t v ↔ v = s.core c t
  fresh : ∀ c t v, m.fresh c t v ↔ v = s.core c t

/-- The system together with its monitor, taking only steps allowed by `H`. -/
inductive Run (S : Nat) (H : St D → Act → Ev D → Prop) : St D → Mon D → Prop
  | init {s m} : Init s m → Run S H s m
  | step {s m a e s' m'} : Run S H s m → Step S s a e s' → H s a e →
      m.Next (obs e) m' → Run S H s' m'

/-- A write-invalidate write whose data for the sector is in the core already, and
which has not yet dropped the sector from the cache. -/
def WiPending (s : St D) (c t : Nat) : Prop :=
  ∃ j, (s.req j).disc = false ∧ (s.req j).pc ≠ .free ∧ (s.req j).has c t = true ∧
    ((s.req j).eng = .wi ∧ (s.req j).pc = .xfer ∧ (s.req j).toCore c t = false ∨
      (s.req j).eng = .wi2) ∧
    (s.req j).updd c = false ∧ ¬ ((s.req j).eng = .wi2 ∧ (s.req j).ent c = .none)

/-- No cleaner writes back a sector which is not dirty while such a write is pending
on it.  (`utils_cleaner.c:457-463` writes back the whole line.) -/
def NoStaleWriteback (s : St D) (a : Act) : Prop :=
  ∀ i c t, a = .wback i c t →
    (∃ l, (s.req i).ent c = .line l ∧ s.dirty l t = true) ∨ ¬ WiPending s c t

/-- A write which drops its sectors from the cache after an error drops no sector that
is dirty, unless it is a write-through write whose data for the sector is in the core.
(`engine_inv.c:35-52` drops dirty sectors like all others.) -/
def NoLostDrop (s : St D) (a : Act) : Prop :=
  ∀ i, a = .purge i → ∀ c l t, (s.req i).has c t = true → (s.req i).ent c = .line l →
    s.dirty l t = false ∨ (s.req i).eng = .wt ∧ (s.req i).toCore c t = false

theorem wiPending_of_pend {s : St D} {m : Mon D} {c t : Nat} (hF : Free s m)
    (h : pend s c t) : WiPending s c t ∨ ∀ v, m.fresh c t v := by
  obtain ⟨j, a, b, d⟩ := h
  cases hdj : (s.req j).disc with
  | true => exact Or.inr (hF j c t a hdj)
  | false =>
  refine Or.inl ⟨j, hdj, a.2.1, a.2.2, ?_, ?_, ?_⟩
  · rcases b with b | b
    · exact Or.inr b
    · exact Or.inl b
  · cases q : (s.req j).updd c with
    | false => rfl
    | true =>
      refine absurd ⟨?_, Or.inl q⟩ d
      rcases b with b | b
      · exact Or.inr b
      · exact Or.inl b.1
  · intro q
    exact d ⟨Or.inr q.1, Or.inr q⟩

theorem inv_init {S : Nat} {s : St D} {m : Mon D} (h : Init s m) : Inv S s m := by
  have hr : ∀ i, s.req i = (s.req i).done := h.req
  have hW : ∀ i c t, ¬ W (s.req i) c t := by
    intro i c t a; rw [hr i] at a; simp [W, Req.done, Req.fresh] at a
  have hfb : ∀ i l c t v, ¬ fb (s.req i) l c t v := by
    intro i l c t v a; rw [hr i] at a; simp [fb, Req.done, Req.fresh] at a
  refine ⟨⟨?_, ?_, ?_, ?_, ?_, ?_⟩, ?_, ?_, ?_, ?_, ?_⟩
  · intro l k c a; simp [env, h.map] at a
  · intro l t a; simp [env, h.dirty] at a
  · intro l t a; simp [env, h.valid] at a
  · intro l c t a; simp [env, h.map] at a
  · intro l c t a; simp [env, h.map] at a
  · intro c t _; exact (h.ok c t _).2 rfl
  · intro i
    rw [hr i]
    simp only [Req.done, Req.fresh]
    generalize s.req i = r
    constructor
    case wf => constructor <;> (simp only [wiLike] at *; grind)
    all_goals (simp only [W, fb, coreDone, settled, wiLike] at *; grind)
  · intro i j c d l _ a
    rw [St.holds, hr i] at a; simp [Req.done, Req.fresh] at a
  · intro i j c t l v a; exact absurd a (hW i c t)
  · intro i c t
    rw [h.wr]
    constructor
    · intro a; cases a
    · intro a; exact absurd a (hW i c t)
  · intro i c t
    rw [h.rd]
    constructor
    · intro a; cases a
    · intro a; have := a.2.1; rw [hr i] at this; simp [Req.done, Req.fresh] at this

theorem free_init {s : St D} {m : Mon D} (h : Init s m) : Free s m := by
  intro i c t a
  have := a.2.1
  rw [h.req i] at this
  simp [Req.done, Req.fresh] at this

/-- One step. -/
theorem inv_step {S : Nat} {s s' : St D} {m m' : Mon D} {a : Act} {e : Ev D}
    (h : Inv S s m) (hF : Free s m) (hs : Step S s a e s') (hH : NoStaleWriteback s a) (hD : NoLostDrop s a)
    (hc : e ≠ .crash) (hm : m.Next (obs e) m') : Inv S s' m' ∧ m.Permits (obs e) := by
  cases hs
  case invR => exact ⟨inv_invR h _ _ _ _ ‹_› ‹_› ‹_› ‹_› ‹_› hm, trivial⟩
  case invW => exact ⟨inv_invW h _ _ _ ‹_› ‹_› ‹_› ‹_› hm, trivial⟩
  case invD => exact ⟨inv_invD h _ _ ‹_› ‹_› ‹_› hm, trivial⟩
  case ackD => exact ⟨inv_ackD h hF _ ‹_› ‹_› ‹_› hm, trivial⟩
  case ret i h1 h2 =>
    have h3 : (s.req i).eng.isRd = true := by
      have hw := (h.loc i).wf
      rcases h1 with q | q | q | q | q
      · rcases hw.p1 q with z | z <;> simp [z, Eng.isRd]
      · simp [q.2, Eng.isRd]
      · simp [q.2, Eng.isRd]
      · simp [q.2.1, Eng.isRd]
      · simp [hw.p3 q.1, Eng.isRd]
    refine ⟨inv_ret h _ _ h3 hm, ret_ok h i ?_ h2⟩
    rcases h1 with q | q | q | q | q
    · exact Or.inl q
    · exact Or.inr (Or.inl ⟨q.1, Or.inl (by simp [q.2])⟩)
    · exact Or.inr (Or.inl ⟨q.1, Or.inl (by simp [q.2])⟩)
    · exact Or.inr (Or.inl ⟨q.1, Or.inr q.2.2⟩)
    · exact Or.inr (Or.inr q)
  case retFill i h1 h2 h3 h4 =>
    exact ⟨inv_retFill h _ _ h1 h2 h3 h4 hm, ret_ok h i (Or.inr (Or.inl ⟨h1, Or.inl (by simp [h2])⟩)) h4⟩
  case ack => exact ⟨inv_ack h _ ‹_› ‹_› ‹_› ‹_› ‹_› hm, trivial⟩
  case errR => exact ⟨inv_errR h _ ‹_› hm, trivial⟩
  case errMiss => exact ⟨inv_errMiss h _ _ _ ‹_› ‹_› ‹_› ‹_› ‹_› hm, trivial⟩
  case errW i h1 h2 =>
    refine ⟨inv_errW h _ h1 ?_ hm, trivial⟩
    intro l c t z
    rcases h2 with q | q | q
    · have := z.2.2.2.2.1; rw [q] at this; cases this
    · have := z.2.2.2.1; rcases q.1 with q | q <;> rw [q] at this <;> cases this
    · have := z.2.2.2.2.2; rw [q.2.1] at this; cases this
  case errWr i w d h1 h2 h3 h4 h5 =>
    exact ⟨inv_errWr h i w d h1 h2 h3 h4 h5 (hD i rfl) hm, trivial⟩
  case ackErr => exact ⟨inv_ackErr h _ _ _ ‹_› ‹_› ‹_› ‹_› ‹_› ‹_› hm, trivial⟩
  case crash => exact absurd rfl hc
  all_goals (refine ⟨?_, trivial⟩; cases hm)
  case invC => exact inv_invC h _ ‹_›
  case look => exact inv_look h _ _ _ ‹_› ‹_› ‹_› ‹_›
  case miss => exact inv_miss h _ _ ‹_› ‹_› ‹_› ‹_› ‹_›
  case grab => exact inv_grab h _ _ _ ‹_› ‹_› ‹_› ‹_›
  case remap => exact inv_remap h _ _ _ ‹_› ‹_› ‹_› ‹_› ‹_› ‹_› ‹_› ‹_›
  case drop => exact inv_drop h _ _ _ ‹_› ‹_› ‹_› ‹_› ‹_›
  case restart => exact inv_restart h _ _ _ ‹_› ‹_› ‹_›
  case goHit => exact inv_goHit h _ ‹_› ‹_› ‹_› ‹_›
  case goClean => exact inv_goClean h _ ‹_› ‹_› ‹_›
  case goCore => exact inv_goCore h _ ‹_› ‹_› ‹_› ‹_›
  case goCoreWo => exact inv_goCoreWo h _ _ ‹_› ‹_› ‹_› ‹_›
  case rdCache => exact inv_rdCache h _ _ _ _ ‹_› ‹_› ‹_›
  case rdCore => exact inv_rdCore h _ _ _ ‹_› ‹_›
  case goOver => exact inv_goOver h _ _ ‹_› ‹_› ‹_› ‹_› ‹_›
  case rdOver => exact inv_rdOver h _ _ _ _ ‹_› ‹_› ‹_›
  case fill => exact inv_fill h _ _ _ _ _ ‹_› ‹_› ‹_› ‹_›
  case fillEnd => exact inv_fillEnd h _ _ ‹_› ‹_› ‹_›
  case cgrab => exact inv_cgrab h _ _ _ ‹_› ‹_› ‹_› ‹_› ‹_›
  case cfire => exact inv_cfire h _ _ _ _ ‹_› ‹_› ‹_› ‹_› ‹_›
  case cwrite i c t h1 h2 =>
    refine inv_cwrite h _ _ _ h1 h2 fun l hl => ?_
    rcases hH i c t rfl with ⟨k, a, b⟩ | q
    · rw [hl] at a; cases a; exact Or.inl b
    · by_cases z : pend s c t
      · exact Or.inr (Or.inr ((wiPending_of_pend hF z).resolve_left q))
      · exact Or.inr (Or.inl z)
  case dnext => exact inv_dnext h hF _ ‹_› ‹_› ‹_›
  case dcore => exact inv_dcore h hF _ _ _ _ ‹_› ‹_› ‹_› ‹_›
  case cmark => exact inv_cmark h _ _ _ _ ‹_› ‹_› ‹_› ‹_› ‹_›
  case cskip => exact inv_cskip h _ _ _ ‹_› ‹_› ‹_› ‹_›
  case cend => exact inv_cend h _ ‹_› ‹_› ‹_›
  case cendBg => exact inv_cendBg h _ ‹_› ‹_›
  case flush => exact inv_flush h _ _ _ _ _ ‹_› ‹_›
  case goWrite => exact inv_goWrite h _ _ _ ‹_› ‹_› ‹_› ‹_› ‹_›
  case wCache => exact inv_wCache h _ _ _ _ ‹_› ‹_› ‹_›
  case wCore => exact inv_wCore h _ _ _ ‹_› ‹_›
  case update => exact inv_update h _ _ _ _ ‹_› ‹_› ‹_› ‹_› ‹_›
  case unmap => exact inv_unmap h _ _ _ ‹_› ‹_› ‹_› ‹_› ‹_› ‹_› ‹_›
  case pass2 => exact inv_pass2 h _ ‹_› ‹_› ‹_› ‹_›
  case persist => exact h.disk _ _
  case cerr => exact inv_cerr h _ ‹_›
  case errFill => exact inv_errFill h _ _ _ ‹_› ‹_› ‹_›
  case unmapFree => exact inv_unmapFree h _ ‹_› ‹_›

theorem run_inv {S : Nat} {H : St D → Act → Ev D → Prop}
    (hH : ∀ s a e, H s a e → NoStaleWriteback s a ∧ NoLostDrop s a ∧ e ≠ .crash)
    {s : St D} {m : Mon D} (h : Run S H s m) : Inv S s m ∧ Free s m := by
  induction h with
  | init h => exact ⟨inv_init h, free_init h⟩
  | step _ hs hh hm ih => exact ⟨(inv_step ih.1 ih.2 hs (hH _ _ _ hh).1 (hH _ _ _ hh).2.1
      (hH _ _ _ hh).2.2 hm).1, free_step ih.1 ih.2 hs hm⟩

theorem next_exists (m : Mon D) (e : Ev D) : ∃ m', m.Next (obs e) m' := by
  cases e
  · exact ⟨_, .nothing⟩
  · exact ⟨_, .callR _ _⟩
  · exact ⟨_, .retR _ _⟩
  · exact ⟨_, .callW _ _ _⟩
  · exact ⟨_, .ackW _⟩
  · exact ⟨_, .errR _⟩
  · exact ⟨_, .errW _⟩
  · exact ⟨_, .callD _ _⟩
  · exact ⟨_, .crash⟩

/-- C01.  In every execution without power failure, with any number of concurrent
requests of all engines and of cleaners, and any device I/O and metadata flush failing
at any time, every completed read returns permitted values, under two conditions: no
cleaner writes back a sector that is not dirty under a pending write-invalidate write,
and no failing write drops a dirty sector.  `partial`: without the first condition it is
false, see `cleaner_overwrites_write_invalidate`; without the second see
`failed_write_loses_older_write`. -/
theorem reads_permitted_partial {S : Nat} {s s' : St D} {m : Mon D} {a : Act} {e : Ev D}
    (h : Run S (fun s a e => NoStaleWriteback s a ∧ NoLostDrop s a ∧ e ≠ .crash) s m)
    (hs : Step S s a e s') (ha : NoStaleWriteback s a) (hd : NoLostDrop s a)
    (hc : e ≠ .crash) : m.Permits (obs e) := by
  have hi := run_inv (fun _ _ _ h => h) h
  obtain ⟨m', hm⟩ := next_exists m e
  exact (inv_step hi.1 hi.2 hs ha hd hc hm).2

/-- No write-invalidate write is active; discards may be. -/
def NoWi (s : St D) : Prop :=
  ∀ i, (s.req i).eng ≠ .wi ∧ ((s.req i).eng = .wi2 → (s.req i).disc = true)

theorem NoWi.noStale {s : St D} (h : NoWi s) (a : Act) : NoStaleWriteback s a := by
  rintro i c t -
  refine Or.inr ?_
  rintro ⟨j, p, _, _, q, _⟩
  rcases q with q | q
  · exact (h j).1 q.1
  · have := (h j).2 q; rw [p] at this; cases this

/-- Without write-invalidate writes the condition on cleaners is not needed: with
write-through, write-back, discards, all the read engines and cleaners, reads are permitted
unless a failing write drops a dirty sector. -/
theorem reads_permitted_no_wi {S : Nat} {s s' : St D} {m : Mon D} {a : Act} {e : Ev D}
    (h : Run S (fun s a e => NoWi s ∧ NoLostDrop s a ∧ e ≠ .crash) s m)
    (hs : Step S s a e s') (ha : NoWi s) (hd : NoLostDrop s a) (hc : e ≠ .crash) :
    m.Permits (obs e) := by
  have hr : Run S (fun s a e => NoStaleWriteback s a ∧ NoLostDrop s a ∧ e ≠ .crash) s m := by
    clear hs ha hd
    induction h with
    | init h => exact .init h
    | step _ h2 h3 h4 ih => exact ih.step h2 ⟨h3.1.noStale _, h3.2⟩ h4
  exact reads_permitted_partial hr hs (ha.noStale a) hd hc

end Verif.Engine
