import Verif.Lemma.SeqCutoff
import Mathlib.Tactic.ByContra

/-!
# C27: sequential cutoff

The specification speaks of the requests made so far.  A stream is a chain of requests of one
direction, each beginning where the one before ended.
-/

namespace Verif.SeqCutoff

open Verif.RbTree (Heap upd)

/-! ## Specification -/

/-- The requests `l` are of direction `rw`, the first begins at `a`, each next one where the one
before ends, and the last ends at `e`. -/
def Contig (rw : Bool) : Nat → List Req → Nat → Prop
  | a, [], e => a = e
  | a, r :: l, e => r.rw = rw ∧ r.addr = a ∧ Contig rw (a + r.len) l e

/-- Some of the requests `h`, in their order, all of them `ok`, make a stream of `bytes` bytes that
ends at `last`. -/
def Tracked (h : List Req) (ok : Req → Prop) (rw : Bool) (last bytes : Nat) : Prop :=
  ∃ a l, l ≠ [] ∧ List.Sublist l h ∧ (∀ r ∈ l, ok r) ∧ Contig rw a l last ∧ a + bytes = last

/-- Request `r` may be a part of a stream kept for core `c`: it went to the core, or to a queue
that was used by the core. -/
def OfCore (h : List Req) (c : Nat) (r : Req) : Prop :=
  r.core = c ∨ ∃ r' ∈ h, r'.queue = r.queue ∧ r'.core = c

/-! ## Helpers -/

theorem Contig.snoc {rw : Bool} {r : Req} (hr : r.rw = rw) :
    ∀ {l : List Req} {a e : Nat}, Contig rw a l e → r.addr = e → Contig rw a (l ++ [r]) (e + r.len)
  | [], a, e, h, ha => by
    simp only [Contig] at h
    subst h
    exact ⟨hr, ha, rfl⟩
  | x :: l, a, e, h, ha => ⟨h.1, h.2.1, Contig.snoc hr h.2.2 ha⟩

theorem Contig.le {rw : Bool} : ∀ {l : List Req} {a e : Nat}, Contig rw a l e → a ≤ e
  | [], _, _, h => Nat.le_of_eq h
  | _ :: _, _, _, h => Nat.le_trans (Nat.le_add_right _ _) h.2.2.le

theorem Tracked.le {h ok rw last bytes} (t : Tracked h ok rw last bytes) : bytes ≤ last := by
  obtain ⟨a, _, _, _, _, _, e⟩ := t; omega

theorem Tracked.mono {h h' : List Req} {ok ok' : Req → Prop} {rw last bytes}
    (t : Tracked h ok rw last bytes) (hh : List.Sublist h h') (ho : ∀ r, ok r → ok' r) :
    Tracked h' ok' rw last bytes := by
  obtain ⟨a, l, h1, h2, h3, h4, h5⟩ := t
  exact ⟨a, l, h1, h2.trans hh, fun r hr => ho r (h3 r hr), h4, h5⟩

theorem Tracked.snoc {h : List Req} {ok ok' : Req → Prop} {bytes} {r : Req}
    (t : Tracked h ok r.rw r.addr bytes) (ho : ∀ x, ok x → ok' x) (hr : ok' r) :
    Tracked (h ++ [r]) ok' r.rw (r.addr + r.len) (bytes + r.len) := by
  obtain ⟨a, l, h1, h2, h3, h4, h5⟩ := t
  refine ⟨a, l ++ [r], by simp, h2.append (List.Sublist.refl _), ?_, h4.snoc rfl rfl, by omega⟩
  intro x hx
  rcases List.mem_append.1 hx with hx | hx
  · exact ho x (h3 x hx)
  · rw [List.mem_singleton.1 hx]; exact hr

theorem Tracked.single {h : List Req} {ok : Req → Prop} {r : Req} (hr : ok r) :
    Tracked (h ++ [r]) ok r.rw (r.addr + r.len) r.len :=
  ⟨r.addr, [r], by simp, List.sublist_append_right _ _, by simpa using hr, ⟨rfl, rfl, rfl⟩, rfl⟩

theorem OfCore.mono {h : List Req} {c : Nat} {r : Req} (x : Req) (o : OfCore h c r) :
    OfCore (h ++ [x]) c r := by
  rcases o with o | ⟨r', h1, h2⟩
  · exact Or.inl o
  · exact Or.inr ⟨r', by simp [h1], h2⟩

/-- What is known about a request in the middle of its update. -/
def TaskOk (nq : Nat) (st : State) (t : Task) : Prop :=
  t.req.addr + t.req.len < 2 ^ 64 ∧
  ∀ s, ((∃ r cfg p, t = .look r cfg p s) ∨ ∃ r, t = .prom r s) →
    s < nq ∧ ((st.queue t.req.queue).streams s).used = true ∧ t.req ∈ st.hist

structure SysInv (nq nc : Nat) (st : State) : Prop where
  q : ∀ q, BInv (Tracked st.hist (fun r => r.queue = q)) nq (st.queue q)
  c : ∀ c, BInv (Tracked st.hist (OfCore st.hist c)) nc (st.core c)
  co : ∀ c, Ordered (st.core c)
  qo : ∀ q, st.promoted q = false → Ordered (st.queue q)
  t : ∀ t ∈ st.tasks, TaskOk nq st t

theorem TaskOk.mono {nq st st' t} (h : TaskOk nq st t)
    (hu : ∀ q z, ((st.queue q).streams z).used = true → ((st'.queue q).streams z).used = true)
    (hh : List.Sublist st.hist st'.hist) : TaskOk nq st' t :=
  ⟨h.1, fun s hs => ⟨(h.2 s hs).1, hu _ _ (h.2 s hs).2.1, hh.subset (h.2 s hs).2.2⟩⟩

theorem exec_inv {nq nc st t} (hi : SysInv nq nc st) (ht : TaskOk nq st t) :
    ∃ st' next, exec st t = some (st', next) ∧ SysInv nq nc st' ∧ st'.tasks = st.tasks ∧
      ∀ t' ∈ next.toList, TaskOk nq st' t' := by
  have hcm : ∀ (r : Req) (c : Nat) rw l y, Tracked st.hist (OfCore st.hist c) rw l y →
      Tracked (st.hist ++ [r]) (OfCore (st.hist ++ [r]) c) rw l y :=
    fun r c rw l y h => h.mono (List.sublist_append_left _ _) (fun x hx => hx.mono r)
  have hqm : ∀ (r : Req) (q : Nat) rw l y, Tracked st.hist (fun x => x.queue = q) rw l y →
      Tracked (st.hist ++ [r]) (fun x => x.queue = q) rw l y :=
    fun r q rw l y h => h.mono (List.sublist_append_left _ _) (fun x hx => hx)
  cases t with
  | core r cfg p =>
    have hlt : r.addr + r.len < 2 ^ 64 := ht.1
    obtain ⟨b', o, e, hb, _, hno, hso, _⟩ := update_binv (hi.c r.core) r.rw p hlt
      (hcm r r.core) (fun _ _ _ h => h.le)
      (fun y h => h.snoc (fun x hx => hx.mono r) (Or.inl rfl)) (Tracked.single (Or.inl rfl))
    have ho := update_ordered (hi.c r.core) (hi.co r.core) hlt e
    cases o with
    | none =>
      refine ⟨st, some (.queue r cfg p), ?_, hi, rfl, ?_⟩
      · simp only [exec, runCore, e, Option.map_some]
      · intro t' h'
        simp only [Option.toList_some, List.mem_singleton] at h'
        subst h'
        exact ⟨ht.1, by rintro s (⟨_, _, _, h⟩ | ⟨_, h⟩) <;> cases h⟩
    | some s =>
      refine ⟨{ st with core := upd st.core r.core b', hist := st.hist ++ [r] }, none, ?_,
        ⟨fun q => (hi.q q).mono (hqm r q), ?_, ?_, hi.qo, ?_⟩, rfl, by simp⟩
      · simp only [exec, runCore, e, Option.map_some]
      · intro c
        show BInv _ nc (upd st.core r.core b' c)
        by_cases h : c = r.core
        · subst h; rw [upd_self]; exact hb
        · rw [upd_ne _ _ h]; exact (hi.c c).mono (hcm r c)
      · intro c
        show Ordered (upd st.core r.core b' c)
        by_cases h : c = r.core
        · subst h; rw [upd_self]; exact ho
        · rw [upd_ne _ _ h]; exact hi.co c
      · intro t ht'
        exact (hi.t t ht').mono (fun _ _ h => h) (List.sublist_append_left _ _)
  | queue r cfg p =>
    have hlt : r.addr + r.len < 2 ^ 64 := ht.1
    obtain ⟨b', o, e, hb, hins, hno, hso, hus⟩ := update_binv (hi.q r.queue) r.rw true hlt
      (hqm r r.queue) (fun _ _ _ h => h.le)
      (fun y h => h.snoc (fun x hx => hx) rfl) (Tracked.single rfl)
    cases o with
    | none => exact absurd rfl (hins rfl)
    | some s =>
      obtain ⟨hs, hu⟩ := hso s rfl
      have hmono : ∀ q z, ((st.queue q).streams z).used = true →
          ((upd st.queue r.queue b' q).streams z).used = true := by
        intro q z h
        by_cases hq : q = r.queue
        · subst hq; rw [upd_self]; exact hus z h
        · rw [upd_ne _ _ hq]; exact h
      refine ⟨{ st with queue := upd st.queue r.queue b', hist := st.hist ++ [r] },
        some (.look r cfg p s), ?_, ⟨?_, fun c => (hi.c c).mono (hcm r c), hi.co, ?_, ?_⟩, rfl, ?_⟩
      · simp only [exec, runQueue, e]
      · intro q
        show BInv _ nq (upd st.queue r.queue b' q)
        by_cases h : q = r.queue
        · subst h; rw [upd_self]; exact hb
        · rw [upd_ne _ _ h]; exact (hi.q q).mono (hqm r q)
      · intro q hq
        show Ordered (upd st.queue r.queue b' q)
        by_cases h : q = r.queue
        · subst h; rw [upd_self]
          exact update_ordered (hi.q _) (hi.qo _ hq) hlt e
        · rw [upd_ne _ _ h]; exact hi.qo q hq
      · intro t ht'
        exact (hi.t t ht').mono hmono (List.sublist_append_left _ _)
      · intro t' h'
        simp only [Option.toList_some, List.mem_singleton] at h'
        subst h'
        refine ⟨ht.1, ?_⟩
        rintro s' (⟨_, _, _, h⟩ | ⟨_, h⟩)
        · cases h
          refine ⟨hs, ?_, by simp [Task.req]⟩
          show ((upd st.queue r.queue b' r.queue).streams s).used = true
          rw [upd_self]; exact hu
        · cases h
  | look r cfg p s =>
    refine ⟨st, _, rfl, hi, rfl, ?_⟩
    intro t' h'
    rw [Option.mem_toList] at h'
    split at h'
    · simp only [Option.mem_def, Option.some.injEq] at h'
      subst h'
      refine ⟨ht.1, ?_⟩
      rintro s' (⟨_, _, _, h⟩ | ⟨_, h⟩)
      · cases h
      · cases h; exact ht.2 s (Or.inl ⟨_, _, _, rfl⟩)
    · simp at h'
  | prom r s =>
    obtain ⟨hs, hu, hr⟩ := ht.2 s (Or.inr ⟨_, rfl⟩)
    simp only [Task.req] at hr hu
    obtain ⟨d', s', e, hd', hs', _, hus⟩ := promote_binv (hi.c r.core) (hi.q r.queue) hs hu
      (fun _ _ _ h => h)
      (fun rw l y h => h.mono (ok' := OfCore st.hist r.core) (List.Sublist.refl _)
        (fun x hx => Or.inr ⟨r, hr, hx.symm, rfl⟩))
    have ho := promote_ordered (hi.c r.core) (hi.co r.core) e
    refine ⟨{ st with core := upd st.core r.core d', queue := upd st.queue r.queue s',
                      promoted := upd st.promoted r.queue true }, none, ?_,
      ⟨?_, ?_, ?_, ?_, ?_⟩, rfl, by simp⟩
    · simp only [exec, runProm, e, Option.map_some]
    · intro q
      show BInv _ nq (upd st.queue r.queue s' q)
      by_cases h : q = r.queue
      · subst h; rw [upd_self]; exact hs'
      · rw [upd_ne _ _ h]; exact hi.q q
    · intro c
      show BInv _ nc (upd st.core r.core d' c)
      by_cases h : c = r.core
      · subst h; rw [upd_self]; exact hd'
      · rw [upd_ne _ _ h]; exact hi.c c
    · intro c
      show Ordered (upd st.core r.core d' c)
      by_cases h : c = r.core
      · subst h; rw [upd_self]; exact ho
      · rw [upd_ne _ _ h]; exact hi.co c
    · intro q hq
      change upd st.promoted r.queue true q = false at hq
      show Ordered (upd st.queue r.queue s' q)
      by_cases h : q = r.queue
      · subst h; rw [upd_self] at hq; cases hq
      · rw [upd_ne _ _ h] at hq ⊢; exact hi.qo q hq
    · intro t ht'
      refine (hi.t t ht').mono ?_ (List.Sublist.refl _)
      intro q z h
      show ((upd st.queue r.queue s' q).streams z).used = true
      by_cases hq : q = r.queue
      · subst hq; rw [upd_self]; exact hus z h
      · rw [upd_ne _ _ hq]; exact h

theorem init_inv {nq nc st} (hq : 0 < nq) (hq' : 4096 * nq ≤ 2 ^ 64) (hc : 0 < nc)
    (hc' : 4096 * nc ≤ 2 ^ 64) (h : Init nq nc st) : SysInv nq nc st := by
  obtain ⟨h1, h2, h3, h4, h5⟩ := h
  have key : ∀ (P : Bool → Nat → Nat → Prop) {h n b}, 0 < n → 4096 * n ≤ 2 ^ 64 →
      baseInit h n = some b → BInv P n b ∧ Ordered b := by
    intro P h n b hn hn' e
    obtain ⟨b', e', i, o, _⟩ := init_binv P h hn hn'
    rw [e] at e'; cases e'
    exact ⟨i, o⟩
  refine ⟨fun q => ?_, fun c => ?_, fun c => ?_, fun q _ => ?_, by simp [h3]⟩
  · obtain ⟨h, e⟩ := h1 q; exact (key _ hq hq' e).1
  · obtain ⟨h, e⟩ := h2 c; exact (key _ hc hc' e).1
  · obtain ⟨h, e⟩ := h2 c; exact (key (fun _ _ _ => True) hc hc' e).2
  · obtain ⟨h, e⟩ := h1 q; exact (key (fun _ _ _ => True) hq hq' e).2

theorem start_ok {nq st} {r : Req} (cfg : Cfg) (flag : Bool) (h : r.addr + r.len < 2 ^ 64) :
    TaskOk nq st (start r cfg flag) := by
  unfold start
  simp only
  split
  · exact ⟨h, by rintro s (⟨_, _, _, h⟩ | ⟨_, h⟩) <;> cases h⟩
  · exact ⟨h, by rintro s (⟨_, _, _, h⟩ | ⟨_, h⟩) <;> cases h⟩

theorem SysInv.addTasks {nq nc st} (hi : SysInv nq nc st) (ts : List Task)
    (h : ∀ t ∈ ts, TaskOk nq st t) : SysInv nq nc { st with tasks := ts } :=
  ⟨hi.q, hi.c, hi.co, hi.qo, h⟩

theorem step_inv {nq nc st st'} (hq : 0 < nq) (hq' : 4096 * nq ≤ 2 ^ 64) (hc : 0 < nc)
    (hc' : 4096 * nc ≤ 2 ^ 64) (hi : SysInv nq nc st) (h : Step nq nc st st') :
    SysInv nq nc st' := by
  cases h with
  | begin r cfg flag h1 _ =>
    refine hi.addTasks _ ?_
    intro t ht
    rcases List.mem_cons.1 ht with rfl | ht
    · exact start_ok cfg flag h1
    · exact hi.t t ht
  | run h1 h2 =>
    obtain ⟨st1, next, e, hi1, ht, hn⟩ := exec_inv hi (hi.t _ (List.mem_of_getElem? h1))
    rw [e] at h2; cases h2
    refine hi1.addTasks _ ?_
    intro t h
    rcases List.mem_append.1 h with h | h
    · exact hn t h
    · exact hi1.t t (by rw [ht]; exact List.mem_of_mem_eraseIdx h)
  | initCore c h b e =>
    obtain ⟨b', e', i, o, _⟩ := init_binv (Tracked st.hist (OfCore st.hist c)) h hc hc'
    rw [e] at e'; cases e'
    refine ⟨hi.q, ?_, ?_, hi.qo, hi.t⟩
    · intro c'
      show BInv _ nc (upd st.core c b c')
      by_cases h : c' = c
      · subst h; rw [upd_self]; exact i
      · rw [upd_ne _ _ h]; exact hi.c c'
    · intro c'
      show Ordered (upd st.core c b c')
      by_cases h : c' = c
      · subst h; rw [upd_self]; exact o
      · rw [upd_ne _ _ h]; exact hi.co c'
  | initQueue q h b e hnt =>
    obtain ⟨b', e', i, o, _⟩ := init_binv (Tracked st.hist (fun r => r.queue = q)) h hq hq'
    rw [e] at e'; cases e'
    refine ⟨?_, hi.c, hi.co, ?_, ?_⟩
    · intro q'
      show BInv _ nq (upd st.queue q b q')
      by_cases h : q' = q
      · subst h; rw [upd_self]; exact i
      · rw [upd_ne _ _ h]; exact hi.q q'
    · intro q' hp
      change upd st.promoted q false q' = false at hp
      show Ordered (upd st.queue q b q')
      by_cases h : q' = q
      · subst h; rw [upd_self]; exact o
      · rw [upd_ne _ _ h] at hp ⊢; exact hi.qo q' hp
    · intro t ht
      refine ⟨(hi.t t ht).1, fun s hs => ?_⟩
      have := (hi.t t ht).2 s hs
      refine ⟨this.1, ?_, this.2.2⟩
      show ((upd st.queue q b t.req.queue).streams s).used = true
      rw [upd_ne _ _ (hnt t ht)]; exact this.2.1

/-- The states that can be reached with `nq` streams per queue and `nc` per core. -/
def Reachable (nq nc : Nat) (st : State) : Prop :=
  ∃ s0, Init nq nc s0 ∧ Reach (fun s => s = s0) (Step nq nc) st

/-- The numbers of streams are positive and the starting addresses of the unused streams have
64 bits. -/
structure Sizes (nq nc : Nat) : Prop where
  q : 0 < nq
  q64 : 4096 * nq ≤ 2 ^ 64
  c : 0 < nc
  c64 : 4096 * nc ≤ 2 ^ 64

theorem reach_inv {nq nc st} (hz : Sizes nq nc) (h : Reachable nq nc st) : SysInv nq nc st := by
  obtain ⟨s0, h0, h⟩ := h
  refine Reach.inv (P := SysInv nq nc) ?_ ?_ _ h
  · rintro s rfl; exact init_inv hz.q hz.q64 hz.c hz.c64 h0
  · intro s s' hi hs; exact step_inv hz.q hz.q64 hz.c hz.c64 hi hs

/-! ## Theorems about all executions -/

/-- The condition of the policy. -/
theorem policy_iff {cfg : Cfg} {on : Bool} :
    policyOn cfg on = true ↔ cfg.policy = .always ∨ (cfg.policy = .full ∧ on = true) := by
  unfold policyOn
  cases cfg.policy <;> simp

/-- A request that is cut off continues a stream of earlier requests of the same direction, made
through the same queue or for the same core (or a queue the core uses), and with the request the
stream is at least as long as the threshold. -/
theorem cutoff_sound {nq nc st} (hz : Sizes nq nc) (h : Reachable nq nc st) {cfg : Cfg} {on : Bool}
    {r : Req} (hr : r.addr + r.len < 2 ^ 64) {fl : Bool}
    (e : check cfg on (st.queue r.queue) (st.core r.core) r = some (true, fl)) :
    (cfg.policy = .always ∨ (cfg.policy = .full ∧ on = true)) ∧ ∃ bytes, bytes + r.len ≥ cfg.threshold ∧
      ((fl = false ∧ Tracked st.hist (fun x => x.queue = r.queue) r.rw r.addr bytes) ∨
       (fl = true ∧ Tracked st.hist (OfCore st.hist r.core) r.rw r.addr bytes)) := by
  have hi := reach_inv hz h
  unfold check at e
  cases hp : policyOn cfg on with
  | false => rw [hp] at e; simp at e
  | true =>
    refine ⟨policy_iff.1 hp, ?_⟩
    simp only [hp, Bool.not_true, Bool.false_eq_true, if_false] at e
    have ha : r.addr < 2 ^ 64 := by omega
    have base : ∀ {P n b}, BInv P n b → (∀ rw l y, P rw l y → y ≤ l) →
        (baseCheck b r.addr r.len r.rw cfg.threshold = some (false, none)) ∨
        ∃ s y, P r.rw r.addr y ∧
          baseCheck b r.addr r.len r.rw cfg.threshold = some (decide (y + r.len ≥ cfg.threshold), some s) := by
      intro P n b hb hle
      unfold baseCheck
      rcases lookup_sound hb r.rw ha with e1 | ⟨s, hs, e1, hu, h1, h2⟩
      · left; rw [e1]
      · right
        have ht := hb.trk s hs hu
        rw [h1, h2] at ht
        have hy := hle _ _ _ ht
        refine ⟨s, _, ht, ?_⟩
        rw [e1]
        simp only
        rw [w64_eq (by omega)]
    rcases base (hi.q r.queue) (fun _ _ _ h => h.le) with e1 | ⟨s, y, hy, e1⟩
    · rw [e1] at e
      simp only at e
      rcases base (hi.c r.core) (fun _ _ _ h => h.le) with e2 | ⟨s, y, hy, e2⟩
      · rw [e2] at e; simp at e
      · rw [e2] at e
        simp only [Option.some.injEq, Prod.mk.injEq, decide_eq_true_eq, Option.isSome_some] at e
        exact ⟨y, e.1, Or.inr ⟨e.2.symm, hy⟩⟩
    · rw [e1] at e
      simp only [Option.some.injEq, Prod.mk.injEq, decide_eq_true_eq] at e
      exact ⟨y, e.1, Or.inl ⟨e.2.symm, hy⟩⟩

/-- The code never follows a wrong pointer and its loops end: the check and every section of an
update give a result, in every state that can be reached. -/
theorem never_stuck {nq nc st} (hz : Sizes nq nc) (h : Reachable nq nc st) :
    (∀ t ∈ st.tasks, ∃ st' next, exec st t = some (st', next)) ∧
    ∀ (cfg : Cfg) (on : Bool) (r : Req), r.addr < 2 ^ 64 →
      ∃ x, check cfg on (st.queue r.queue) (st.core r.core) r = some x := by
  have hi := reach_inv hz h
  refine ⟨fun t ht => ?_, fun cfg on r ha => ?_⟩
  · obtain ⟨st', next, e, _⟩ := exec_inv hi (hi.t t ht)
    exact ⟨st', next, e⟩
  · have base : ∀ {P n b}, BInv P n b → ∃ x, baseCheck b r.addr r.len r.rw cfg.threshold = some x := by
      intro P n b hb
      unfold baseCheck
      rcases lookup_sound hb r.rw ha with e1 | ⟨s, _, e1, _⟩ <;> rw [e1] <;> exact ⟨_, rfl⟩
    obtain ⟨⟨r1, o1⟩, e1⟩ := base (hi.q r.queue)
    obtain ⟨⟨r2, o2⟩, e2⟩ := base (hi.c r.core)
    unfold check
    rw [e1, e2]
    cases policyOn cfg on
    · exact ⟨_, rfl⟩
    · cases o1 <;> exact ⟨_, rfl⟩

/-- The stream `s` is continued by a request of direction `rw` at `addr`. -/
def Continued (b : Base) (rw : Bool) (addr s : Nat) : Prop :=
  s < b.n ∧ (b.streams s).valid = true ∧ (b.streams s).rw = rw ∧ (b.streams s).last = addr

theorem baseCheck_exact {P n b} (hb : BInv P n b) (ho : Ordered b) (hle : ∀ rw l y, P rw l y → y ≤ l)
    {addr len threshold : Nat} {rw : Bool} (ha : addr + len < 2 ^ 64) :
    (baseCheck b addr len rw threshold = some (false, none) ∧ ∀ s, ¬ Continued b rw addr s) ∨
    ∃ s, Continued b rw addr s ∧ baseCheck b addr len rw threshold =
      some (decide ((b.streams s).bytes + len ≥ threshold), some s) := by
  unfold baseCheck
  rcases lookup_exact hb ho rw (addr := addr) (by omega) with ⟨e, h⟩ | ⟨s, hs, e, h1, h2, h3⟩
  · left
    rw [e]
    exact ⟨rfl, fun s hs => h s (by rw [← hb.hn]; exact hs.1) hs.2⟩
  · right
    refine ⟨s, ⟨by rw [hb.hn]; exact hs, h1, h2, h3⟩, ?_⟩
    rw [e]
    have ht := hle _ _ _ (hb.trk s hs (hb.vu s hs h1))
    rw [h3] at ht
    simp only
    rw [w64_eq (by omega)]

/-- While no stream was promoted from the queue, the decision is exactly that of a continued stream
of the queue, or, if there is none, of a continued stream of the core, or, if there is none either,
not to cut off.  Partial: after a promotion the streams of the queue may be missed
(`promotion_loses_streams`); of several continued streams it is not said which one decides
(`tie_ignores_longer`). -/
theorem check_exact_partial {nq nc st} (hz : Sizes nq nc) (h : Reachable nq nc st) {cfg : Cfg} {on : Bool}
    {r : Req} (hr : r.addr + r.len < 2 ^ 64) (hp : st.promoted r.queue = false)
    (hpol : cfg.policy = .always ∨ (cfg.policy = .full ∧ on = true)) :
    (∃ s, Continued (st.queue r.queue) r.rw r.addr s ∧
      check cfg on (st.queue r.queue) (st.core r.core) r =
        some (decide (((st.queue r.queue).streams s).bytes + r.len ≥ cfg.threshold), false)) ∨
    ((∀ s, ¬ Continued (st.queue r.queue) r.rw r.addr s) ∧ ∃ s,
      Continued (st.core r.core) r.rw r.addr s ∧
      check cfg on (st.queue r.queue) (st.core r.core) r =
        some (decide (((st.core r.core).streams s).bytes + r.len ≥ cfg.threshold), true)) ∨
    ((∀ s, ¬ Continued (st.queue r.queue) r.rw r.addr s) ∧
      (∀ s, ¬ Continued (st.core r.core) r.rw r.addr s) ∧
      check cfg on (st.queue r.queue) (st.core r.core) r = some (false, false)) := by
  have hi := reach_inv hz h
  have hon := policy_iff.2 hpol
  unfold check
  simp only [hon, Bool.not_true, Bool.false_eq_true, if_false]
  rcases baseCheck_exact (threshold := cfg.threshold) (rw := r.rw) (hi.q r.queue) (hi.qo _ hp)
      (fun _ _ _ h => h.le) hr with
    ⟨e1, n1⟩ | ⟨s, hs, e1⟩
  · right
    rcases baseCheck_exact (threshold := cfg.threshold) (rw := r.rw) (hi.c r.core) (hi.co _)
        (fun _ _ _ h => h.le) hr with
      ⟨e2, n2⟩ | ⟨s, hs, e2⟩
    · right; refine ⟨n1, n2, ?_⟩; rw [e1, e2]; rfl
    · left; refine ⟨n1, s, hs, ?_⟩; rw [e1, e2]; rfl
  · left; refine ⟨s, hs, ?_⟩; rw [e1]

/-- The policy alone: `never` cuts nothing off, `full` only when the cache is attached and almost
full. -/
theorem policy_off {cfg : Cfg} {on : Bool} {q c : Base} {r : Req}
    (h : ¬(cfg.policy = .always ∨ (cfg.policy = .full ∧ on = true))) :
    check cfg on q c r = some (false, false) := by
  rw [← policy_iff, Bool.not_eq_true] at h
  unfold check; simp [h]

/-- The condition of the policy `full`: the cache is attached, and what the request leaves free is
no more than 512 lines. -/
theorem isOn_iff (attached : Bool) (numFree lines : Nat) :
    isOn attached numFree lines = true ↔ attached = true ∧ numFree ≤ lines + 512 := by
  unfold isOn
  simp only [Bool.and_eq_true, decide_eq_true_eq, Nat.add_comm 512]

/-- A core's own streams are found whenever there is one, whatever was promoted. -/
theorem core_exact {nq nc st} (hz : Sizes nq nc) (h : Reachable nq nc st) {c addr len threshold : Nat}
    {rw : Bool} (hr : addr + len < 2 ^ 64) :
    (baseCheck (st.core c) addr len rw threshold = some (false, none) ∧
      ∀ s, ¬ Continued (st.core c) rw addr s) ∨
    ∃ s, Continued (st.core c) rw addr s ∧ baseCheck (st.core c) addr len rw threshold =
      some (decide (((st.core c).streams s).bytes + len ≥ threshold), some s) := by
  have hi := reach_inv hz h
  exact baseCheck_exact (hi.c c) (hi.co c) (fun _ _ _ h => h.le) hr

/-! ## Streams are followed -/

/-- A request as the streams of one set see it. -/
structure U where
  addr : Nat
  len : Nat
  rw : Bool

/-- A sequence of updates of one set of streams. -/
def feed (b : Base) : List U → Option Base
  | [] => some b
  | u :: us =>
    match baseUpdate b u.addr u.len u.rw true with
    | none => none
    | some (b', _) => feed b' us

/-- No other stream of direction `rw` ends in `E`. -/
def Only (b : Base) (rw : Bool) (E : Nat → Prop) (s : Nat) : Prop :=
  ∀ z, Continued b rw (b.streams z).last z → E (b.streams z).last → z = s

theorem mem_split_moveTail {p q : List Nat} {s t : Nat} (ht : t ∈ p ++ s :: q) (h : t ≠ s) :
    ∃ p' q', moveTail (p ++ s :: q) t = p' ++ s :: q' ∧ p.length ≤ p'.length + 1 := by
  unfold moveTail
  by_cases htp : t ∈ p
  · refine ⟨p.erase t, q ++ [t], ?_, ?_⟩
    · rw [List.erase_append_left _ htp]; simp
    · rw [List.length_erase_of_mem htp]; omega
  · refine ⟨p, q.erase t ++ [t], ?_, Nat.le_succ _⟩
    rw [List.erase_append_right _ htp, List.erase_cons]
    have : (s == t) = false := by simpa using fun h' : s = t => h h'.symm
    simp [this]

/-- Generic property of the streams used below. -/
def Fits (_rw : Bool) (last bytes : Nat) : Prop := bytes ≤ last

theorem fits_update {n b} (hb : BInv Fits n b) (ho : Ordered b) (u : U) (hu : u.addr + u.len < 2 ^ 64) :
    ∃ b' s, baseUpdate b u.addr u.len u.rw true = some (b', some s) ∧ BInv Fits n b' ∧ Ordered b' ∧ s < n := by
  obtain ⟨b', o, e, hb', hins, _, hso, _⟩ := update_binv (P := Fits) (P' := Fits) hb u.rw true hu
    (fun _ _ _ h => h) (fun _ _ _ h => h)
    (fun y (h : y ≤ u.addr) => show y + u.len ≤ u.addr + u.len by omega)
    (show u.len ≤ u.addr + u.len by omega)
  cases o with
  | none => exact absurd rfl (hins rfl)
  | some s => exact ⟨b', s, e, hb', update_ordered hb ho hu e, (hso s rfl).1⟩

/-- The position of a stream in the list of the least recently used. -/
def Pos (b : Base) (s k : Nat) : Prop := ∃ p q, b.lru = p ++ s :: q ∧ p.length = k

/-- Updates for other addresses leave a stream alone as long as they are fewer than its place in
the list of the least recently used. -/
theorem kept {n : Nat} {rw : Bool} {E : Nat → Prop} {s e : Nat} :
    ∀ (us : List U) {b : Base} {k : Nat}, BInv Fits n b → Ordered b → s < n →
      Continued b rw e s → E e → Only b rw E s → Pos b s k → us.length ≤ k →
      (∀ u ∈ us, u.addr + u.len < 2 ^ 64 ∧ (u.rw = rw → ¬ E u.addr ∧ ¬ E (u.addr + u.len))) →
      ∃ b', feed b us = some b' ∧ BInv Fits n b' ∧ Ordered b' ∧ b'.streams s = b.streams s ∧
        Only b' rw E s
  | [], b, _, hb, ho, _, _, _, hon, _, _, _ => ⟨b, rfl, hb, ho, rfl, hon⟩
  | u :: us, b, k, hb, ho, hs, hc, hE, hon, hp, hl, hu => by
    obtain ⟨hu1, hu2⟩ := hu u (by simp)
    obtain ⟨b1, t, e1, hb1, ho1, ht⟩ := fits_update hb ho u hu1
    have hsl : s ∈ b.lru := (hb.lru s).2 hs
    have htl : t ∈ b.lru := (hb.lru t).2 ht
    obtain ⟨p, q, hpq, hpk⟩ := hp
    rcases update_effect e1 with ⟨h, _⟩ | ⟨t', v, h1, h2, h3, h4, h5⟩
    · cases h
    · cases h1
      have hvl : v.last = u.addr + u.len ∧ v.rw = u.rw := by
        rcases h5 with ⟨hl, rfl⟩ | ⟨_, rfl, _⟩
        · rcases lookup_sound hb u.rw (addr := u.addr) (by omega) with e' | ⟨s', _, e', _, e2, _⟩
          · rw [hl] at e'; cases e'
          · rw [hl] at e'; cases e'
            exact ⟨w64_eq hu1, e2⟩
        · exact ⟨w64_eq hu1, rfl⟩
      have hts : t ≠ s := by
        rintro rfl
        rcases h5 with ⟨hl, _⟩ | ⟨_, _, l, hl'⟩
        · rcases lookup_sound hb u.rw (addr := u.addr) (by omega) with e' | ⟨s', _, e', _, e2, e3⟩
          · rw [hl] at e'; cases e'
          · rw [hl] at e'; cases e'
            have hrw : u.rw = rw := e2.symm.trans hc.2.2.1
            exact (hu2 hrw).1 (by rw [← e3, hc.2.2.2]; exact hE)
        · have hnd := hb.nd
          rw [hpq] at hl' hnd
          cases p with
          | nil => simp at hpk; simp at hl; omega
          | cons x p =>
            simp at hl'
            rw [hl'.1] at hnd
            simp at hnd
      obtain ⟨p', q', g2, g3⟩ := mem_split_moveTail (by rw [← hpq]; exact htl) hts
      have hsame : b1.streams s = b.streams s := by rw [h2, upd_ne _ _ (Ne.symm hts)]
      have hc1 : Continued b1 rw e s := by
        refine ⟨by rw [h4]; exact hc.1, ?_⟩
        rw [hsame]; exact hc.2
      have hon1 : Only b1 rw E s := by
        intro z hz hEz
        by_cases hzt : z = t
        · exfalso
          subst hzt
          have hz3 := hz.2.2.1
          rw [h2, upd_self] at hEz hz3
          rw [hvl.1] at hEz
          rw [hvl.2] at hz3
          exact (hu2 hz3).2 hEz
        · refine hon z ?_ ?_
          · obtain ⟨z1, z2, z3, z4⟩ := hz
            rw [h2, upd_ne _ _ hzt] at z2 z3
            exact ⟨by rw [← h4]; exact z1, z2, z3, rfl⟩
          · rw [h2, upd_ne _ _ hzt] at hEz; exact hEz
      obtain ⟨b', f1, f2, f3, f4, f5⟩ := kept us (k := p'.length) hb1 ho1 hs hc1 hE hon1
        ⟨p', q', by rw [h3, hpq]; exact g2, rfl⟩ (by simp at hl; omega) (fun x hx => hu x (by simp [hx]))
      refine ⟨b', ?_, f2, f3, f4.trans hsame, f5⟩
      simp only [feed, e1]; exact f1

/-- The chain of requests: each of the given length, begun where the one before ended, with other
updates in between. -/
def play (b : Base) (rw : Bool) : Nat → List (Nat × List U) → Option Base
  | _, [] => some b
  | a, (len, us) :: cs =>
    match feed b (⟨a, len, rw⟩ :: us) with
    | none => none
    | some b' => play b' rw (a + len) cs

/-- The bytes of the chain. -/
def total (cs : List (Nat × List U)) : Nat := (cs.map Prod.fst).sum

/-- The chain ends in `E`, and what is between its requests (fewer than `n` each time) neither
continues a stream in `E` nor ends in `E`. -/
def Undisturbed (n : Nat) (rw : Bool) (E : Nat → Prop) : Nat → List (Nat × List U) → Prop
  | _, [] => True
  | a, (len, us) :: cs =>
    E (a + len) ∧ a + len < 2 ^ 64 ∧ us.length < n ∧
    (∀ u ∈ us, u.addr + u.len < 2 ^ 64 ∧ (u.rw = rw → ¬ E u.addr ∧ ¬ E (u.addr + u.len))) ∧
    Undisturbed n rw E (a + len) cs

theorem lru_length {P n b} (hb : BInv P n b) : b.lru.length = n := by
  have : b.lru.Perm (List.range n) := by
    rw [List.perm_ext_iff_of_nodup hb.nd List.nodup_range]
    intro z; rw [hb.lru z, List.mem_range]
  simpa using this.length_eq

/-- The first request of a part of the chain. -/
theorem play_one {n b rw} {E : Nat → Prop} {a len : Nat} {us : List U} (hb : BInv Fits n b)
    (ho : Ordered b) (h : Undisturbed n rw E a [(len, us)]) {y : Nat}
    (hs : (∃ s, Continued b rw a s ∧ y ≤ (b.streams s).bytes ∧ Only b rw (fun e => E e ∨ e = a) s) ∨
      (y = 0 ∧ ∀ z, Continued b rw (b.streams z).last z → ¬ E (b.streams z).last)) :
    ∃ b', feed b (⟨a, len, rw⟩ :: us) = some b' ∧ BInv Fits n b' ∧ Ordered b' ∧
      ∃ s, Continued b' rw (a + len) s ∧ y + len ≤ (b'.streams s).bytes ∧ Only b' rw E s := by
  obtain ⟨hE, hlt, hlen, hus, _⟩ := h
  obtain ⟨b1, t, e1, hb1, ho1, ht⟩ := fits_update hb ho ⟨a, len, rw⟩ hlt
  rcases update_effect e1 with ⟨h, _⟩ | ⟨t', v, h1, h2, h3, h4, h5⟩
  · cases h
  · cases h1
    have hv : v.valid = true ∧ v.rw = rw ∧ v.last = a + len ∧ y + len ≤ v.bytes := by
      rcases lookup_exact hb ho rw (addr := a) (by omega) with ⟨l1, l2⟩ | ⟨z, hz, l1, l2, l3, l4⟩
      · rcases h5 with ⟨hl, _⟩ | ⟨_, rfl, _⟩
        · rw [l1] at hl; cases hl
        · refine ⟨rfl, rfl, w64_eq hlt, ?_⟩
          rcases hs with ⟨s, hs, _⟩ | ⟨rfl, _⟩
          · exact absurd hs.2 (l2 s (by rw [← hb.hn]; exact hs.1))
          · simp [fresh]
      · rcases h5 with ⟨hl, rfl⟩ | ⟨hl, _⟩
        · rw [l1] at hl; cases hl
          have hby : (b.streams t).bytes ≤ a := by
            have := hb.trk t ht (hb.vu t ht l2)
            rw [l4] at this; exact this
          refine ⟨l2, l3, w64_eq hlt, ?_⟩
          show y + len ≤ w64 ((b.streams t).bytes + len)
          rw [w64_eq (by omega)]
          rcases hs with ⟨s, hs, hy, hon⟩ | ⟨rfl, _⟩
          · have : t = s := hon t ⟨by rw [hb.hn]; exact ht, l2, l3, rfl⟩ (Or.inr l4)
            subst this; omega
          · omega
        · rw [l1] at hl; cases hl
    have hc1 : Continued b1 rw (a + len) t := by
      refine ⟨by rw [h4, hb.hn]; exact ht, ?_⟩
      rw [h2, upd_self]; exact ⟨hv.1, hv.2.1, hv.2.2.1⟩
    have hon1 : Only b1 rw E t := by
      intro z hz hEz
      by_contra hzt
      obtain ⟨z1, z2, z3, z4⟩ := hz
      rw [h2, upd_ne _ _ hzt] at z2 z3 hEz
      rw [h4] at z1
      have hzc : Continued b rw (b.streams z).last z := ⟨z1, z2, z3, rfl⟩
      rcases hs with ⟨s, hs, hy, hon⟩ | ⟨_, hno⟩
      · have hzs := hon z hzc (Or.inl hEz)
        subst hzs
        rcases lookup_exact hb ho rw (addr := a) (by omega) with ⟨l1, l2⟩ | ⟨x, hx, l1, l2, l3, l4⟩
        · exact l2 z (by rw [← hb.hn]; exact hs.1) hs.2
        · have hxz := hon x ⟨by rw [hb.hn]; exact hx, l2, l3, rfl⟩ (Or.inr l4)
          rcases h5 with ⟨hl, _⟩ | ⟨hl, _⟩
          · rw [l1] at hl; cases hl; exact hzt hxz.symm
          · rw [l1] at hl; cases hl
      · exact hno z hzc hEz
    have hpos : Pos b1 t (n - 1) := by
      refine ⟨b.lru.erase t, [], by rw [h3]; rfl, ?_⟩
      rw [List.length_erase_of_mem ((hb.lru t).2 ht), lru_length hb]
    obtain ⟨b', f1, f2, f3, f4, f5⟩ := kept us hb1 ho1 ht hc1 hE hon1 hpos (by omega) hus
    refine ⟨b', ?_, f2, f3, t, ⟨by rw [f2.hn]; exact ht, ?_⟩, ?_, f5⟩
    · simp only [feed, e1]; exact f1
    · rw [f4]; exact hc1.2
    · rw [f4, h2, upd_self]; exact hv.2.2.2

theorem play_spec {n rw} {E : Nat → Prop} :
    ∀ (cs : List (Nat × List U)) {b : Base} {a y : Nat}, BInv Fits n b → Ordered b →
      Undisturbed n rw E a cs →
      (∃ s, Continued b rw a s ∧ y ≤ (b.streams s).bytes ∧ Only b rw (fun e => E e ∨ e = a) s) →
      ∃ b', play b rw a cs = some b' ∧ BInv Fits n b' ∧ Ordered b' ∧
        ∃ s, Continued b' rw (a + total cs) s ∧ y + total cs ≤ (b'.streams s).bytes ∧
          ∀ z, Continued b' rw (a + total cs) z → z = s
  | [], b, a, y, hb, ho, _, ⟨s, h1, h2, h3⟩ =>
    ⟨b, rfl, hb, ho, s, h1, h2, fun z hz => h3 z ⟨hz.1, hz.2.1, hz.2.2.1, rfl⟩ (Or.inr hz.2.2.2)⟩
  | (len, us) :: cs, b, a, y, hb, ho, hu, hs => by
    obtain ⟨hE, hlt, hlen, hus, hrest⟩ := hu
    obtain ⟨b1, e1, hb1, ho1, s, c1, c2, c3⟩ := play_one hb ho ⟨hE, hlt, hlen, hus, trivial⟩ (y := y)
      (Or.inl hs)
    have c4 : Only b1 rw (fun e => E e ∨ e = a + len) s := by
      intro z hz hEz
      rcases hEz with h | h
      · exact c3 z hz h
      · exact c3 z hz (by rw [h]; exact hE)
    obtain ⟨b', e2, hb2, ho2, s', d1, d2, d3⟩ := play_spec cs hb1 ho1 hrest ⟨s, c1, c2, c4⟩
    have ht : total ((len, us) :: cs) = len + total cs := by simp [total]
    refine ⟨b', ?_, hb2, ho2, s', ?_, ?_, ?_⟩
    · simp only [play, e1]; exact e2
    · rw [ht, ← Nat.add_assoc]; exact d1
    · omega
    · rw [ht, ← Nat.add_assoc]; exact d3

/-- A chain of requests, each beginning where the one before ended, with fewer than `n` other
updates between two of them, is followed: the request that continues it is cut off as soon as the
chain with the request reaches the threshold.  The others must not touch the ends of the chain, nor
may an older stream end there. -/
theorem stream_cut_off {n : Nat} {b : Base} (hb : BInv Fits n b) (ho : Ordered b) {rw : Bool}
    {E : Nat → Prop} {a : Nat} {cs : List (Nat × List U)} (hne : cs ≠ [])
    (hu : Undisturbed n rw E a cs)
    (hfree : ∀ z, Continued b rw (b.streams z).last z → ¬ E (b.streams z).last) :
    ∃ b', play b rw a cs = some b' ∧
      ∀ len threshold, a + total cs + len < 2 ^ 64 → threshold ≤ total cs + len →
        ∃ s, baseCheck b' (a + total cs) len rw threshold = some (true, some s) := by
  cases cs with
  | nil => exact absurd rfl hne
  | cons c cs =>
    obtain ⟨len0, us⟩ := c
    obtain ⟨hE, hlt, hlen, hus, hrest⟩ := hu
    obtain ⟨b1, e1, hb1, ho1, s, c1, c2, c3⟩ := play_one hb ho ⟨hE, hlt, hlen, hus, trivial⟩ (y := 0)
      (Or.inr ⟨rfl, hfree⟩)
    have c4 : Only b1 rw (fun e => E e ∨ e = a + len0) s := by
      intro z hz hEz
      rcases hEz with h | h
      · exact c3 z hz h
      · exact c3 z hz (by rw [h]; exact hE)
    obtain ⟨b', e2, hb2, ho2, s', d1, d2, d3⟩ := play_spec cs hb1 ho1 hrest ⟨s, c1, c2, c4⟩
    have ht : total ((len0, us) :: cs) = len0 + total cs := by simp [total]
    refine ⟨b', by simp only [play, e1]; exact e2, ?_⟩
    intro len threshold h1 h2
    rw [ht, ← Nat.add_assoc] at h1 ⊢
    rcases baseCheck_exact (threshold := threshold) (rw := rw) hb2 ho2 (fun _ _ _ h => h) h1 with
      ⟨_, hno⟩ | ⟨x, hx, e⟩
    · exact absurd d1 (hno s')
    · rw [d3 x hx] at e
      refine ⟨s', ?_⟩
      rw [e]
      simp only [Option.some.injEq, Prod.mk.injEq, decide_eq_true_eq, and_true]
      omega

/-- The same for the decision about a request, when the streams are those of its queue. -/
theorem check_cut_off {cfg : Cfg} {on : Bool} {q c : Base} {r : Req} {s : Nat}
    (hon : policyOn cfg on = true)
    (h : baseCheck q r.addr r.len r.rw cfg.threshold = some (true, some s)) :
    check cfg on q c r = some (true, false) := by
  unfold check; simp [hon, h]

/-- The streams of a queue of a state that can be reached meet the conditions above, as long as no
stream was promoted from it; those of a core always do. -/
theorem reachable_fits {nq nc st} (hz : Sizes nq nc) (h : Reachable nq nc st) :
    (∀ q, st.promoted q = false → BInv Fits nq (st.queue q) ∧ Ordered (st.queue q)) ∧
    ∀ c, BInv Fits nc (st.core c) ∧ Ordered (st.core c) := by
  have hi := reach_inv hz h
  exact ⟨fun q hq => ⟨(hi.q q).mono fun _ _ _ h => h.le, hi.qo q hq⟩,
    fun c => ⟨(hi.c c).mono fun _ _ _ h => h.le, hi.co c⟩⟩

/-- The first insertion into the streams of a queue after a promotion puts them in order again. -/
theorem order_restored {nq nc st} (hz : Sizes nq nc) (h : Reachable nq nc st) {q c s : Nat}
    (hp : st.promoted q = false) (hs : s < nq) {dst' src'}
    (e : basePromote (st.core c) (st.queue q) s = some (dst', src')) {addr len : Nat} {rw : Bool}
    (hmiss : lookup src' rw addr = some none) :
    ∃ b' o, baseUpdate src' addr len rw true = some (b', o) ∧ Ordered b' :=
  heal ((reach_inv hz h).q q) ((reach_inv hz h).qo q hp) hs e hmiss

/-! ## Whole requests -/

theorem update_reach {nq nc st st'} {r : Req} {cfg : Cfg} {flag : Bool} (h : Reachable nq nc st)
    (ht : st.tasks = []) (hr : r.addr + r.len < 2 ^ 64) (hp : cfg.policy ≠ .never)
    (e : update st r cfg flag = some st') : Reachable nq nc st' ∧ st'.tasks = [] := by
  have one : ∀ {st : State} {t x}, Reachable nq nc { st with tasks := [t] } → exec { st with tasks := [t] } t = some x →
      Reachable nq nc { x.1 with tasks := x.2.toList } := by
    rintro st t ⟨st1, next⟩ ⟨s0, h0, h⟩ e
    refine ⟨s0, h0, ?_⟩
    have := Reach.step h (Step.run (i := 0) rfl e)
    simpa using this
  have tasksOf : ∀ {st : State} {t x}, exec st t = some x → x.1.tasks = st.tasks := by
    rintro st t ⟨st1, next⟩ e
    cases t with
    | core r cfg p =>
      simp only [exec, runCore, Option.map_eq_some_iff] at e
      obtain ⟨⟨b, o⟩, _, e⟩ := e
      cases o <;> simp only [Prod.mk.injEq] at e <;> rw [← e.1]
    | queue r cfg p =>
      simp only [exec, runQueue] at e
      split at e
      · cases e
      · cases e
      · simp only [Option.some.injEq, Prod.mk.injEq] at e; rw [← e.1]
    | look r cfg p s =>
      simp only [exec, runLook, Option.some.injEq, Prod.mk.injEq] at e; rw [← e.1]
    | prom r s =>
      simp only [exec, runProm, Option.map_eq_some_iff, Prod.mk.injEq] at e
      obtain ⟨⟨b, o⟩, _, e1, _⟩ := e
      rw [← e1]
  have blind : ∀ {st : State} {t ts x}, exec st t = some x →
      exec { st with tasks := ts } t = some ({ x.1 with tasks := ts }, x.2) := by
    rintro st t ts ⟨st1, next⟩ e
    cases t with
    | core r cfg p =>
      simp only [exec, runCore, Option.map_eq_some_iff] at e ⊢
      obtain ⟨⟨b, o⟩, e', e⟩ := e
      refine ⟨(b, o), e', ?_⟩
      cases o <;> simp only [Prod.mk.injEq] at e ⊢ <;> obtain ⟨rfl, rfl⟩ := e <;> exact ⟨rfl, rfl⟩
    | queue r cfg p =>
      simp only [exec, runQueue] at e ⊢
      split at e
      · cases e
      · cases e
      · simp only [Option.some.injEq, Prod.mk.injEq] at e ⊢
        obtain ⟨rfl, rfl⟩ := e; exact ⟨rfl, rfl⟩
    | look r cfg p s =>
      simp only [exec, runLook, Option.some.injEq, Prod.mk.injEq] at e ⊢
      obtain ⟨rfl, rfl⟩ := e; exact ⟨rfl, rfl⟩
    | prom r s =>
      simp only [exec, runProm, Option.map_eq_some_iff, Prod.mk.injEq] at e ⊢
      obtain ⟨⟨b, o⟩, e', rfl, rfl⟩ := e
      exact ⟨(b, o), e', rfl, rfl⟩
  have go : ∀ {st : State} {t x}, st.tasks = [] → Reachable nq nc { st with tasks := [t] } →
      exec st t = some x → Reachable nq nc { x.1 with tasks := x.2.toList } ∧ x.1.tasks = [] := by
    intro st t x h0 h1 h2
    exact ⟨by simpa using one h1 (blind h2), by rw [tasksOf h2]; exact h0⟩
  have fin : ∀ {st : State}, st.tasks = [] → Reachable nq nc { st with tasks := [] } →
      Reachable nq nc st := by
    intro st h0 h1; rw [← h0] at h1; exact h1
  have h1 : Reachable nq nc { st with tasks := [start r cfg flag] } := by
    obtain ⟨s0, h0, h⟩ := h
    have := Reach.step h (Step.begin r cfg flag hr hp)
    rw [ht] at this
    exact ⟨s0, h0, this⟩
  unfold update at e
  rw [if_neg hp] at e
  simp only at e
  split at e
  · cases e
  · next e1 =>
    obtain ⟨r1, t1⟩ := go ht h1 e1
    cases e; exact ⟨fin t1 r1, t1⟩
  · next e1 =>
    obtain ⟨r1, t1⟩ := go ht h1 e1
    split at e
    · cases e
    · next e2 =>
      obtain ⟨r2, t2⟩ := go t1 r1 e2
      cases e; exact ⟨fin t2 r2, t2⟩
    · next e2 =>
      obtain ⟨r2, t2⟩ := go t1 r1 e2
      split at e
      · cases e
      · next e3 =>
        obtain ⟨r3, t3⟩ := go t2 r2 e3
        cases e; exact ⟨fin t3 r3, t3⟩
      · next e3 =>
        obtain ⟨r3, t3⟩ := go t2 r2 e3
        split at e
        · cases e
        · next e4 =>
          obtain ⟨r4, t4⟩ := go t3 r3 e4
          cases e; exact ⟨fin t4 r4, t4⟩
        · cases e

/-- Requests one after the other: each is checked, then its update is made. -/
def session (cfg : Cfg) (st : State) : List Req → Option State
  | [] => some st
  | r :: rs =>
    match check cfg true (st.queue r.queue) (st.core r.core) r with
    | none => none
    | some (_, flag) =>
      match update st r cfg flag with
      | none => none
      | some st => session cfg st rs

theorem session_reach {nq nc : Nat} {cfg : Cfg} (hp : cfg.policy ≠ .never) :
    ∀ (rs : List Req) {st st' : State}, (∀ r ∈ rs, r.addr + r.len < 2 ^ 64) → Reachable nq nc st →
      st.tasks = [] → session cfg st rs = some st' → Reachable nq nc st' ∧ st'.tasks = []
  | [], _, _, _, h, ht, e => by cases e; exact ⟨h, ht⟩
  | r :: rs, st, st', hr, h, ht, e => by
    simp only [session] at e
    split at e
    · cases e
    · split at e
      · cases e
      · next e' =>
        obtain ⟨h1, h2⟩ := update_reach h ht (hr r (by simp)) hp e'
        exact session_reach hp rs (fun x hx => hr x (by simp [hx])) h1 h2 e

/-- Memory before anything is stored in it. -/
def heap0 : Heap :=
  { root := none, left := fun _ => none, right := fun _ => none, parent := fun _ => none,
    red := fun _ => false, key := fun _ => 0, dups := fun _ => [], head := fun _ => none }

/-- All queues and cores with fresh streams. -/
def state0 (nq nc : Nat) : Option State :=
  (baseInit heap0 nq).bind fun q => (baseInit heap0 nc).map fun c =>
    { queue := fun _ => q, core := fun _ => c, tasks := [], hist := [], promoted := fun _ => false }

theorem session0_reach {nq nc : Nat} {cfg : Cfg} (hp : cfg.policy ≠ .never) {rs : List Req}
    (hr : ∀ r ∈ rs, r.addr + r.len < 2 ^ 64) {st : State}
    (e : (state0 nq nc).bind (fun s => session cfg s rs) = some st) : Reachable nq nc st := by
  rw [Option.bind_eq_some_iff] at e
  obtain ⟨s, e1, e2⟩ := e
  unfold state0 at e1
  simp only [Option.bind_eq_some_iff, Option.map_eq_some_iff] at e1
  obtain ⟨q, hq, c, hc, rfl⟩ := e1
  exact (session_reach hp rs hr ⟨_, ⟨fun _ => ⟨_, hq⟩, fun _ => ⟨_, hc⟩, rfl, rfl, rfl⟩, .init rfl⟩ rfl e2).1

/-! ## Cases -/

def cfg0 (threshold promotionCount : Nat) : Cfg := ⟨.always, threshold, promotionCount, false⟩

instance (b : Base) (rw : Bool) (addr s : Nat) : Decidable (Continued b rw addr s) := by
  unfold Continued; infer_instance

theorem of_any {nq nc : Nat} {cfg : Cfg} (hp : cfg.policy ≠ .never) {rs : List Req}
    (hr : ∀ r ∈ rs, r.addr + r.len < 2 ^ 64) {P : State → Bool}
    (h : ((state0 nq nc).bind (fun s => session cfg s rs)).any P = true) :
    ∃ st, Reachable nq nc st ∧ P st = true := by
  rw [Option.any_eq_true] at h
  obtain ⟨st, e, hP⟩ := h
  exact ⟨st, session0_reach hp hr e, hP⟩

/-- The numbers of streams of the code meet the conditions. -/
theorem sizes_real : Sizes 64 128 := ⟨by decide, by decide, by decide, by decide⟩

/-- A stream of 8 requests of 128 KiB, interleaved with others: the eighth is cut off with the
default threshold of 1 MiB. -/
example : ∃ st, Reachable 64 128 st ∧
    check (cfg0 1048576 16) true (st.queue 0) (st.core 0) ⟨0, 0, 917504, 131072, true⟩ =
      some (true, false) ∧
    check (cfg0 1048577 16) true (st.queue 0) (st.core 0) ⟨0, 0, 917504, 131072, true⟩ =
      some (false, false) := by
  have h := of_any (nq := 64) (nc := 128) (cfg := cfg0 1048576 16) (by decide)
    (rs := (List.range 7).flatMap fun i =>
      [⟨0, 0, 131072 * i, 131072, true⟩, ⟨0, 0, 100000000 * (i + 1), 4096, true⟩,
       ⟨0, 0, 131072 * (i + 1), 4096, false⟩])
    (P := fun st =>
      decide (check (cfg0 1048576 16) true (st.queue 0) (st.core 0) ⟨0, 0, 917504, 131072, true⟩ =
        some (true, false)) &&
      decide (check (cfg0 1048577 16) true (st.queue 0) (st.core 0) ⟨0, 0, 917504, 131072, true⟩ =
        some (false, false)))
    (by decide) (by decide +kernel)
  obtain ⟨st, h1, h2⟩ := h
  simp only [Bool.and_eq_true, decide_eq_true_eq] at h2
  exact ⟨st, h1, h2⟩

/-- A stream that was promoted to the core is cut off there. -/
example : ∃ st, Reachable 4 4 st ∧ st.promoted 0 = true ∧
    check (cfg0 300 2) true (st.queue 1) (st.core 0) ⟨0, 1, 200, 100, true⟩ = some (true, true) := by
  have h := of_any (nq := 4) (nc := 4) (cfg := cfg0 300 2) (by decide)
    (rs := [⟨0, 0, 0, 100, true⟩, ⟨0, 0, 100, 100, true⟩])
    (P := fun st => st.promoted 0 &&
      decide (check (cfg0 300 2) true (st.queue 1) (st.core 0) ⟨0, 1, 200, 100, true⟩ =
        some (true, true)))
    (by decide) (by decide +kernel)
  obtain ⟨st, h1, h2⟩ := h
  simp only [Bool.and_eq_true, decide_eq_true_eq] at h2
  exact ⟨st, h1, h2⟩

/-- Defect: promoting a stream changes its key while it stays in the tree.  With 64 streams, after
64 streams were begun and the thirty-second was promoted, a request that continues another stream
and reaches the threshold is not cut off. -/
theorem promotion_loses_streams : ∃ st r s, Reachable 64 128 st ∧
    Continued (st.queue 0) r.rw r.addr s ∧
    ((st.queue 0).streams s).bytes + r.len ≥ 20 ∧ r.queue = 0 ∧ r.core = 0 ∧
    check (cfg0 20 2) true (st.queue 0) (st.core 0) r = some (false, false) := by
  have h := of_any (nq := 64) (nc := 128) (cfg := cfg0 20 2) (by decide)
    (rs := ((List.range 64).map fun i => ⟨0, 0, 1000 * i + 1, 10, false⟩) ++ [⟨0, 0, 31011, 10, false⟩])
    (P := fun st =>
      decide (Continued (st.queue 0) false 16011 16 ∧ ((st.queue 0).streams 16).bytes + 10 ≥ 20 ∧
        check (cfg0 20 2) true (st.queue 0) (st.core 0) ⟨0, 0, 16011, 10, false⟩ = some (false, false)))
    (by decide) (by decide +kernel)
  obtain ⟨st, h1, h2⟩ := h
  simp only [decide_eq_true_eq] at h2
  exact ⟨st, ⟨0, 0, 16011, 10, false⟩, 16, h1, h2.1, h2.2.1, rfl, rfl, h2.2.2⟩

/-- Defect: of several streams that end at one address the first is ignored, even if it is the
longest. -/
theorem tie_ignores_longer : ∃ st s, Reachable 4 4 st ∧ st.promoted 0 = false ∧
    Continued (st.queue 0) false 200 s ∧ ((st.queue 0).streams s).bytes + 50 ≥ 150 ∧
    check (cfg0 150 16) true (st.queue 0) (st.core 0) ⟨0, 0, 200, 50, false⟩ = some (false, false) := by
  have h := of_any (nq := 4) (nc := 4) (cfg := cfg0 150 16) (by decide)
    (rs := [⟨0, 0, 100, 100, false⟩, ⟨0, 0, 150, 50, false⟩])
    (P := fun st => decide (st.promoted 0 = false ∧
      Continued (st.queue 0) false 200 0 ∧ ((st.queue 0).streams 0).bytes + 50 ≥ 150 ∧
      check (cfg0 150 16) true (st.queue 0) (st.core 0) ⟨0, 0, 200, 50, false⟩ = some (false, false)))
    (by decide) (by decide +kernel)
  obtain ⟨st, h1, h2⟩ := h
  simp only [decide_eq_true_eq] at h2
  exact ⟨st, 0, h1, h2⟩

/-- The streams of a queue do not tell the cores apart: the first request of core 1 is cut off
because it begins at the address where requests of core 0 ended. -/
theorem other_core_continues : ∃ st, Reachable 4 4 st ∧ (∀ r ∈ st.hist, r.core = 0) ∧
    check (cfg0 200 16) true (st.queue 0) (st.core 1) ⟨1, 0, 100, 100, false⟩ = some (true, false) := by
  have h := of_any (nq := 4) (nc := 4) (cfg := cfg0 200 16) (by decide)
    (rs := [⟨0, 0, 0, 100, false⟩])
    (P := fun st => decide ((∀ r ∈ st.hist, r.core = 0) ∧
      check (cfg0 200 16) true (st.queue 0) (st.core 1) ⟨1, 0, 100, 100, false⟩ = some (true, false)))
    (by decide) (by decide +kernel)
  obtain ⟨st, h1, h2⟩ := h
  simp only [decide_eq_true_eq] at h2
  exact ⟨st, h1, h2⟩

/-- The conditions of `stream_cut_off` are met by fresh streams and two requests with another one
in between. -/
example : Undisturbed 4 true (fun e => e = 100 ∨ e = 200) 0
    [(100, [⟨4096, 512, true⟩, ⟨100, 512, false⟩]), (100, [])] := by
  simp [Undisturbed]

end Verif.SeqCutoff
