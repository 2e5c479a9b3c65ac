import Verif.Lemma.EngineDisk
import Verif.Props.Engine

/-!
# C02: acknowledged writes survive power failures

Executions may contain any number of power failures, between any two steps.  A
failure drops all requests and all state in RAM; the restart rebuilds the mapping
from the dirty lines on the cache device.  What a read may return afterwards is said
by the same monitor as before (`Mon`): a write in flight when the power fails may or
may not have taken effect, an acknowledged write has.
-/

namespace Verif.Engine
open Verif.EngineSpec
variable {D : Type}

/-- No line is mapped for a core line, and no write-invalidate write finds the core
line not mapped, while the cache device still records a line with dirty sectors of
that core line.  (This can only happen after a purge of a dirty line, whose metadata
is flushed after the line has left the mapping: `utils_cache_line.c:10-62`,
`engine_wi.c:68-98`, `engine_discard.c:94-137`.) -/
def NoUnflushedPurge (s : St D) (a : Act) : Prop :=
  ∀ c, ((∃ i, a = .miss i c ∧ ((s.req i).eng = .wi ∨ (s.req i).eng = .wi2) ∧
        (s.req i).disc = false) ∨
      ∃ l, a = .remap c l) →
    ∀ k t, ¬ (s.dmap k = some c ∧ s.ddirty k t = true)

/-- A write which drops its sectors from the cache after an error drops no sector that
is dirty.  (`engine_inv.c:35-52` does not flush the metadata, unless the volume is
atomic.) -/
def NoDirtyDrop (s : St D) (a : Act) : Prop :=
  ∀ i, a = .purge i → ∀ c l t, (s.req i).has c t = true → (s.req i).ent c = .line l →
    s.dirty l t = false

/-- No metadata flush fails: no request or cleaner goes on or completes while a flush of
its lines has not reached the cache device. -/
def NoFlushError (s : St D) (a : Act) : Prop :=
  ∀ i, a = .quit i → ∀ c, (s.req i).need c = false

/-- The conditions of C02 together. -/
structure Calm (s : St D) (a : Act) : Prop where
  stale : NoStaleWriteback s a
  purge : NoUnflushedPurge s a
  drop : NoDirtyDrop s a
  flush : NoFlushError s a

theorem dsk_init {S : Nat} {s : St D} {m : Mon D} (h : Init s m) : Dsk S s m := by
  have hd : ∀ l c t, ¬ s.dd l c t := by
    intro l c t a; have := a.2; rw [h.ddirty] at this; cases this
  constructor
  · intro l t a; rw [h.ddirty] at a; cases a
  · intro l c t a; rw [h.map] at a; cases a
  · intro l c t a; exact absurd a (hd l c t)
  · intro l k c t u a; exact absurd a (hd l c t)
  · intro l c t a; exact absurd a (hd l c t)
  · intro c t _; exact (h.ok c t _).2 rfl
  · intro l c t a; exact absurd a (hd l c t)
  · intro i l c t _ a; exact absurd a (hd l c t)

theorem dsk_step {S : Nat} {s s' : St D} {m m' : Mon D} {a : Act} {e : Ev D}
    (h : Inv S s m) (hF : Free s m) (hd : Dsk S s m) (hs : Step S s a e s') (hC : Calm s a)
    (hm : m.Next (obs e) m') :
    Inv S s' m' ∧ Dsk S s' m' ∧ m.Permits (obs e) := by
  by_cases hc : e = .crash
  · subst hc
    cases hs
    case crash f h1 h2 => exact ⟨inv_crash hd h1 h2 hm, dsk_crash hd h1 h2 hm, trivial⟩
  · have hi := inv_step h hF hs hC.stale
      (fun i z c l t x y => Or.inl (hC.drop i z c l t x y)) hc hm
    refine ⟨hi.1, ?_, hi.2⟩
    by_cases he : e = .tau
    · subst he
      cases hm
      exact dsk_local hd h hF hC.purge hC.flush hs rfl
    · cases hs
      case invR => exact dsk_invR hd h ‹_› ‹_› hm
      case invW => exact dsk_invW hd h ‹_› ‹_› hm
      case invD => exact dsk_invD hd h ‹_› hm
      case ackD i h1 h2 h3 h4 =>
        exact dsk_err (dsk_done hd fun c => ((h.loc i).wf.lkd h3 c).2.1)
          (Or.inr (ackD_err h hF h1 hm))
      case ret i h1 h2 =>
        have hw := (h.loc i).wf
        have h3 : (s.req i).eng.isRd = true ∧ (s.req i).pc ≠ .clean := by
          rcases h1 with q | q | q | q | q
          · rcases hw.p1 q with z | z <;> simp [z, q, Eng.isRd]
          · simp [q.1, q.2, Eng.isRd]
          · simp [q.1, q.2, Eng.isRd]
          · simp [q.1, q.2.1, Eng.isRd]
          · simp [q.1, hw.p3 q.1, Eng.isRd]
        have h4 : (s.req i).done.eng.isWr = false := by
          have := h3.1
          simp only [Req.done, Req.fresh]
          cases q : (s.req i).eng <;> simp_all [Eng.isWr, Eng.isRd]
        exact dsk_ret hd h h3.1 h3.2 h4 hm
      case retFill i h1 h2 h3 h4 =>
        exact dsk_ret hd h (by simp [h2, Eng.isRd]) (by simp [h1]) (by simp [h2, Eng.isWr]) hm
      case ack => exact dsk_ack hd h ‹_› ‹_› ‹_› ‹_› ‹_› hm
      case errR i _ _ _ => exact dsk_err (dsk_done hd (hC.flush i rfl)) (Or.inl hm)
      case errMiss => exact dsk_errMiss hd h ‹_› ‹_› ‹_› ‹_› ‹_› hm
      case errW i _ _ => exact dsk_err (dsk_done hd (hC.flush i rfl)) (Or.inr hm)
      case errWr i w d h1 h2 h3 h4 h5 => exact dsk_errWr hd h h1 h2 h3 h4 h5 (hC.drop i rfl) hm
      case ackErr i w d h1 h2 h3 h4 h5 h6 =>
        exact dsk_ackErr hd h h1 h2 h3 h4 h5 h6 (hC.drop i rfl) hm
      all_goals first | exact absurd rfl he | exact absurd rfl hc

theorem run_dsk {S : Nat} {H : St D → Act → Ev D → Prop}
    (hH : ∀ s m a e, Inv S s m → Dsk S s m → H s a e → ∀ s', Step S s a e s' → Calm s a)
    {s : St D} {m : Mon D} (h : Run S H s m) : Inv S s m ∧ Dsk S s m ∧ Free s m := by
  induction h with
  | init h => exact ⟨inv_init h, dsk_init h, free_init h⟩
  | step _ hs hh hm ih =>
    have := dsk_step ih.1 ih.2.2 ih.2.1 hs (hH _ _ _ _ ih.1 ih.2.1 hh _ hs) hm
    exact ⟨this.1, this.2.1, free_step ih.1 ih.2.2 hs hm⟩

/-- C02.  In every execution, with power failures at any time and any number of
them, any number of concurrent requests of all engines and of cleaners, and any data I/O
failing at any time, every completed read returns permitted values, under two conditions
on races and two on errors.  `partial`: all four are needed, see
`cleaner_overwrites_write_invalidate`, `purge_loses_acknowledged_write`,
`cache_error_loses_acknowledged_write` and `flush_error_loses_acknowledged_write`. -/
theorem reads_permitted_after_crashes_partial {S : Nat} {s s' : St D} {m : Mon D} {a : Act}
    {e : Ev D} (h : Run S (fun s a _ => Calm s a) s m)
    (hs : Step S s a e s') (ha : Calm s a) : m.Permits (obs e) := by
  have hi := run_dsk (fun _ _ _ _ _ _ h _ _ => h) h
  obtain ⟨m', hm⟩ := next_exists m e
  exact (dsk_step hi.1 hi.2.2 hi.2.1 hs ha hm).2.2

/-- No write-invalidate write and no discard is active. -/
def NoPurge (s : St D) : Prop := ∀ i, (s.req i).eng ≠ .wi ∧ (s.req i).eng ≠ .wi2

theorem NoPurge.noWi {s : St D} (h : NoPurge s) : NoWi s :=
  fun i => ⟨(h i).1, fun z => absurd z (h i).2⟩

/-- Without write-invalidate writes and discards the conditions on races are not needed:
acknowledged write-through and write-back writes survive any number of power failures, if no metadata
flush fails and no failing write drops dirty sectors. -/
theorem reads_permitted_after_crashes_no_wi {S : Nat} {s s' : St D} {m : Mon D} {a : Act}
    {e : Ev D} (h : Run S (fun s a _ => NoPurge s ∧ NoDirtyDrop s a ∧ NoFlushError s a) s m)
    (hs : Step S s a e s') (ha : NoPurge s) (hd : NoDirtyDrop s a) (hf : NoFlushError s a) :
    m.Permits (obs e) := by
  have hq : ∀ (s : St D) m a (e : Ev D), Inv S s m → Dsk S s m →
      NoPurge s ∧ NoDirtyDrop s a ∧ NoFlushError s a → ∀ s', Step S s a e s' → Calm s a := by
    intro s m a e hi hd ⟨hn, hx, hy⟩ s' hs
    refine ⟨hn.noWi.noStale a, ?_, hx, hy⟩
    rintro c (⟨i, -, q | q, -⟩ | ⟨l, rfl⟩) k t z
    · exact absurd q (hn i).1
    · exact absurd q (hn i).2
    · have hk : s.map k = some c := by
        rcases hd.b2 k c t z with y | ⟨j, y⟩
        · exact y.1
        · refine ((hi.loc j).link c k y.1).1 ?_
          cases x : (s.req j).gone c with
          | false => rfl
          | true =>
            rcases ((hi.loc j).wf.gn c x).2.1 with w | w
            · exact absurd w (hn j).1
            · exact absurd w (hn j).2
      cases hs
      case remap i h1 h2 h3 h4 h5 h6 h7 h8 => exact h6 k hk
  have hi := run_dsk hq h
  obtain ⟨m', hm⟩ := next_exists m e
  exact (dsk_step hi.1 hi.2.2 hi.2.1 hs (hq s m a e hi.1 hi.2.1 ⟨ha, hd, hf⟩ _ hs) hm).2.2

/-! ## Without write-back

If no request uses write-back, nothing is ever dirty, on the cache device neither, and no
condition is needed. -/

/-- No request uses write-back. -/
def NoWb (s : St D) : Prop := ∀ i, (s.req i).eng ≠ .wb

/-- Nothing is dirty and no cleaner has anything to write back. -/
structure Dry (s : St D) : Prop where
  dirty : ∀ l t, s.dirty l t = false
  ddirty : ∀ l t, s.ddirty l t = false
  wback : ∀ i c t, (s.req i).wback c t = false

theorem dry_init {s : St D} {m : Mon D} (h : Init s m) : Dry s :=
  ⟨h.dirty, h.ddirty, fun i c t => by rw [h.req i]; rfl⟩

theorem Dry.setReq {s : St D} (h : Dry s) (i : Nat) (r : Req D)
    (hr : ∀ c t, r.wback c t = false) (w : Nat → Nat → Bool) (hw : ∀ l t, w l t = false)
    {s' : St D} (e1 : s'.req = upd s.req i r) (e2 : s'.dirty = w)
    (e3 : s'.ddirty = s.ddirty) : Dry s' := by
  refine ⟨by rw [e2]; exact hw, by rw [e3]; exact h.ddirty, fun j c t => ?_⟩
  rw [e1, upd_apply]
  split
  · exact hr c t
  · exact h.wback j c t

theorem purged_dry {s : St D} (h : Dry s) {i : Nat} {d : Nat → Nat → Bool}
    (hd : (s.req i).purged s.dirty d) : ∀ l t, d l t = false := by
  intro l t
  cases q : d l t with
  | false => rfl
  | true => have := ((hd l t).1 q).1; rw [h.dirty] at this; cases this

theorem dry_step {S : Nat} {s s' : St D} {a : Act} {e : Ev D} (h : Dry s) (hn : NoWb s)
    (hs : Step S s a e s') : Dry s' := by
  have hf : ∀ i c t, (s.req i).wback c t = false := h.wback
  cases hs
  case cfire i c l m h1 h2 h3 h4 h5 =>
    refine h.setReq i _ ?_ _ h.dirty rfl rfl rfl
    intro c' t
    simp only [upd_apply]
    split
    · cases q : m t with
      | false => rfl
      | true =>
        rcases ((h5 t).1 q).2 with z | ⟨-, u, z⟩ <;> rw [h.dirty] at z <;> cases z
    · exact hf i c' t
  case cwrite i c t h1 h2 => rw [hf] at h2; cases h2
  case cmark i c l n h1 h2 h3 h4 h5 h6 =>
    refine h.setReq i _ ?_ _ ?_ rfl rfl rfl
    · exact hf i
    intro k t
    simp only
    split
    · rfl
    · exact h.dirty k t
  case flush i c l h1 h2 =>
    refine ⟨h.dirty, ?_, ?_⟩
    · intro k t
      simp only [upd_apply]
      split
      · exact h.dirty l t
      · exact h.ddirty k t
    · intro j c t
      simp only [upd_apply]
      split <;> exact hf _ c t
  case persist l =>
    refine ⟨h.dirty, ?_, hf⟩
    intro k t
    simp only [upd_apply]
    split
    · exact h.dirty l t
    · exact h.ddirty k t
  case update i c l n h1 h2 h3 h4 h5 h6 =>
    refine h.setReq i _ ?_ _ ?_ rfl rfl rfl
    · exact hf i
    intro k t
    simp only
    split
    · cases q : (s.req i).eng with
      | wb => exact absurd q (hn i)
      | _ => rfl
    · exact h.dirty k t
  case unmapFree l h1 h2 => exact ⟨h.dirty, h.ddirty, hf⟩
  case dcore => exact ⟨h.dirty, h.ddirty, hf⟩
  case crash f h1 h2 => exact ⟨h.ddirty, h.ddirty, fun i c t => rfl⟩
  case errMiss i w d h1 h2 h3 h4 h5 =>
    exact h.setReq i (s.req i).done (fun _ _ => rfl) _ (purged_dry h h5) rfl rfl rfl
  case errFill i w d h1 h2 h3 =>
    exact h.setReq i (s.req i).done (fun _ _ => rfl) _ (purged_dry h h3) rfl rfl rfl
  case errWr i w d h1 h2 h3 h4 h5 =>
    exact h.setReq i (s.req i).done (fun _ _ => rfl) _ (purged_dry h h5) rfl rfl rfl
  case ackErr i w d h1 h2 h3 h4 h5 h6 =>
    exact h.setReq i (s.req i).done (fun _ _ => rfl) _ (purged_dry h h6) rfl rfl rfl
  all_goals
    refine h.setReq _ _ ?_ _ h.dirty rfl rfl rfl
    first
      | exact fun _ _ => rfl
      | exact hf _

theorem Dry.dsk {S : Nat} {s : St D} {m : Mon D} (h : Dry s) (hi : Inv S s m) : Dsk S s m := by
  have hd : ∀ l c t, ¬ s.dd l c t := fun l c t q => by have := q.2; rw [h.ddirty] at this; cases this
  refine ⟨?_, ?_, ?_, ?_, ?_, ?_, ?_, ?_⟩
  · intro l t q; rw [h.ddirty] at q; cases q
  · intro l c t _ q; rw [h.dirty] at q; cases q
  · intro l c t q; exact absurd q (hd l c t)
  · intro l k c t u q; exact absurd q (hd l c t)
  · intro l c t q; exact absurd q (hd l c t)
  · intro c t _; exact hi.glo.a2 c t (fun l _ => h.dirty l t)
  · intro l c t q; exact absurd q (hd l c t)
  · intro i l c t _ q; exact absurd q (hd l c t)

theorem dry_inv {S : Nat} {s s' : St D} {m m' : Mon D} {a : Act} {e : Ev D}
    (h : Inv S s m) (hF : Free s m) (hy : Dry s) (hs : Step S s a e s')
    (hm : m.Next (obs e) m') :
    Inv S s' m' ∧ m.Permits (obs e) := by
  by_cases hc : e = .crash
  · subst hc
    cases hs
    case crash f h1 h2 => exact ⟨inv_crash (hy.dsk h) h1 h2 hm, trivial⟩
  · refine inv_step h hF hs ?_ (fun i _ c l t _ _ => Or.inl (hy.dirty l t)) hc hm
    rintro i c t rfl
    cases hs
    case cwrite h1 h2 => rw [hy.wback] at h2; cases h2

/-- C01 and C02 without conditions on races or errors: in every execution in which no
request uses write-back, with any number of concurrent requests of the other engines, discards,
cleaners, power failures, failing data I/Os and failing metadata flushes at any time,
every completed read returns permitted values. -/
theorem reads_permitted_no_wb {S : Nat} {s s' : St D} {m : Mon D} {a : Act} {e : Ev D}
    (h : Run S (fun s _ _ => NoWb s) s m) (hs : Step S s a e s') : m.Permits (obs e) := by
  have hi : Inv S s m ∧ Free s m ∧ Dry s := by
    clear hs
    induction h with
    | init h => exact ⟨inv_init h, free_init h, dry_init h⟩
    | step _ hs hh hm ih => exact ⟨(dry_inv ih.1 ih.2.1 ih.2.2 hs hm).1,
        free_step ih.1 ih.2.1 hs hm, dry_step ih.2.2 hh hs⟩
  obtain ⟨m', hm⟩ := next_exists m e
  exact (dry_inv hi.1 hi.2.1 hi.2.2 hs hm).2

end Verif.Engine
