import Verif.Lemma.RawAtomic

/-! C64: making invalid sectors persistent in an atomic cache. The sectors marked, and no others, are made to read as
zeros, each by one command; completion is reported once, after all commands, with the first error. -/

namespace Verif.RawAtomic

/-! ## Specification -/

/-- The marks of a request are of a contiguous range of sectors: whole lines but for the beginning of the first and the
end of the last. -/
def Shape (c : Ctx) : Prop := ∀ j e, c.map[j]? = some e → e.flush = true → e.miss = false →
  e.start ≤ e.stop ∧ e.stop < c.S ∧ (j ≠ 0 → e.start = 0) ∧ (j + 1 ≠ c.map.length → e.stop = c.S - 1)

/-- The request says that it has marks if it has any. -/
def Said (c : Ctx) : Prop := ∀ e ∈ c.map, e.flush = true → c.marked = true

/-- Byte `b` of the device is in sector `n` counted from where data begins. -/
def InSector (off n b : Nat) : Prop := off + n * 512 ≤ b ∧ b < off + (n + 1) * 512

/-- Byte `b` is in a sector to be made invalid: sector `k` of the line of a marked entry. -/
def Wanted (c : Ctx) (b : Nat) : Prop :=
  ∃ e ∈ c.map, e.flush = true ∧ e.miss = false ∧ ∃ k, e.start ≤ k ∧ k ≤ e.stop ∧ InSector c.off (e.coll * c.S + k) b

/-- What the device holds after a command. A discard leaves zeros if the device says so, else anything. -/
def exec (dz : Bool) (junk : Nat → Nat) (d : Nat → Nat) (x : Cmd) : Nat → Nat := fun b =>
  if x.addr ≤ b ∧ b < x.addr + x.len then (if x.disc && !dz then junk b else 0) else d b

/-- A state of a call. -/
def Run (c : Ctx) (s : St) : Prop := Reach (· = begin c) Step s

/-! ## Marking -/

/-- A mark for invalid sectors is recorded in its entry, and in the request. -/
theorem mark_records (c : Ctx) (i a z : Nat) (e : Ent) (h : c.map[i]? = some e) :
    (mark c i .invalid a z).marked = true ∧
    (mark c i .invalid a z).map[i]? = some { e with flush := true, start := a, stop := z } ∧
    ∀ j, j ≠ i → (mark c i .invalid a z).map[j]? = c.map[j]? := by
  have hi := (List.getElem?_eq_some_iff.1 h).1
  rw [mark_inv c i a z e h]
  exact ⟨rfl, List.getElem?_set_self hi, fun j hj => List.getElem?_set_ne (fun h => hj h.symm)⟩

/-- Sectors becoming clean or dirty need no flush. -/
theorem mark_other (c : Ctx) (i a z : Nat) (t : To) (h : t ≠ .invalid) : mark c i t a z = c := by
  unfold mark; split
  · rfl
  · simp [h]

/-! ## Commands -/

theorem sector_iff (off X a z b : Nat) : (off + (X + a) * 512 ≤ b ∧ b < off + (X + z + 1) * 512) ↔
    ∃ k, a ≤ k ∧ k ≤ z ∧ off + (X + k) * 512 ≤ b ∧ b < off + (X + k + 1) * 512 := by
  have hmul : ∀ n, off + n * 512 ≤ b ↔ off ≤ b ∧ n ≤ (b - off) / 512 := by
    intro n
    rw [Nat.le_div_iff_mul_le (by omega)]; omega
  have hlt : ∀ n, b < off + (n + 1) * 512 ↔ ¬ (off ≤ b ∧ n + 1 ≤ (b - off) / 512) := by
    intro n
    rw [← hmul]; omega
  simp only [hmul, hlt]
  generalize (b - off) / 512 = q
  constructor
  · rintro ⟨⟨h1, h2⟩, h3⟩
    exact ⟨q - X, by omega, by omega, ⟨h1, by omega⟩, by omega⟩
  · rintro ⟨k, h1, h2, h3, h4⟩
    exact ⟨⟨h3.1, by omega⟩, by omega⟩

theorem marks_iff (c : Ctx) (b : Nat) (e : Ent) : marks c.S c.off b e = true ↔
    e.flush = true ∧ e.miss = false ∧ ∃ k, e.start ≤ k ∧ k ≤ e.stop ∧ InSector c.off (e.coll * c.S + k) b := by
  unfold InSector
  rw [← sector_iff c.off (e.coll * c.S) e.start e.stop b]
  simp only [marks, Bool.and_eq_true, decide_eq_true_eq, Bool.not_eq_true', and_assoc]

/-- The number of commands over a byte is the number of entries that mark it: no byte is left out, none that is not
marked is touched, none is touched twice. -/
theorem commands_exact (c : Ctx) (hs : Shape c) (hd : Said c) (hw : c.map.length * (c.S * 512) < 2 ^ 32)
    (hm : c.plan ≠ .now noMem) (b : Nat) :
    c.plan.cmds.countP (cov b) = c.map.countP (marks c.S c.off b) := by
  unfold Ctx.plan at hm ⊢
  by_cases hk : c.marked = false
  · rw [if_pos hk]
    refine Eq.symm (List.countP_eq_zero.2 ?_)
    intro e he h
    simp only [marks, Bool.and_eq_true] at h
    have := hd e he h.1.1.1
    simp [hk] at this
  · rw [if_neg hk] at hm ⊢
    split
    · rename_i e he
      have h0 := hs 0 e (by simp [he])
      rw [he]
      split
      · rename_i hf
        simp only [Bool.and_eq_true, Bool.not_eq_true'] at hf
        have := h0 hf.1 hf.2
        simp only [Plan.cmds, List.countP_cons, List.countP_nil, sec_cov c b e hf.1 hf.2 this.1]
      · rename_i hf
        have : marks c.S c.off b e = false := by
          unfold marks; cases h1 : e.flush <;> cases h2 : e.miss <;> simp_all
        simp [Plan.cmds, this]
    · rename_i hne
      have hn : c.map.length ≠ 1 := by
        intro h
        obtain ⟨e, he⟩ := List.length_eq_one_iff.1 h
        exact hne e he
      split
      · rename_i h; exact absurd (by simp [h]) hm
      · have hl := loop_len c c.map.length c.map 0
        have hml := Nat.mul_le_mul_right (c.S * 512) hl
        have hp := List.mergeSort_perm (c.loop c.map.length 0 c.map).2 (fun a b => decide (a ≤ b))
        simp only [Plan.cmds, List.countP_append]
        rw [runs_count c b _ (sort_pw _) (by rw [hp.length_eq]; unfold W; omega), hp.countP_eq]
        exact loop_count c c.map.length b hn c.map 0
          (shapeFrom_of _ _ _ _ (by simpa [Shape] using hs))

/-- Discards are used just when the device then reads zeros. -/
theorem commands_kind (c : Ctx) : ∀ x ∈ c.plan.cmds, x.disc = c.dz := by
  intro x hx
  unfold Ctx.plan at hx
  split at hx
  · cases hx
  · split at hx
    · split at hx
      · simp [Plan.cmds] at hx; simp [hx, Ctx.sec]
      · cases hx
    · split at hx
      · cases hx
      · rcases List.mem_append.1 hx with h | h
        · exact loop_disc c _ _ _ x h
        · exact runs_disc c _ x h

theorem exec_fold (dz : Bool) (junk : Nat → Nat) (b : Nat) (l : List Cmd) (h : ∀ x ∈ l, x.disc = dz) :
    ∀ d, l.foldl (exec dz junk) d b = if l.countP (cov b) = 0 then d b else 0 := by
  induction l with
  | nil => intro d; rfl
  | cons x l ih =>
    intro d
    rw [List.foldl_cons, ih (fun y hy => h y (List.mem_cons_of_mem _ hy)), List.countP_cons]
    have hx := h x (List.mem_cons_self ..)
    simp only [exec, hx, cov, Bool.and_eq_true, decide_eq_true_eq]
    by_cases hc : x.addr ≤ b ∧ b < x.addr + x.len
    · cases dz <;> simp [hc]
    · simp [hc]

/-- After the commands the sectors marked read as zeros and all else is as it was, whatever a discard leaves on a device
that does not promise zeros. -/
theorem contents (c : Ctx) (hs : Shape c) (hd : Said c) (hw : c.map.length * (c.S * 512) < 2 ^ 32)
    (hm : c.plan ≠ .now noMem) (junk d : Nat → Nat) (b : Nat) :
    (Wanted c b → c.plan.cmds.foldl (exec c.dz junk) d b = 0) ∧
    (¬ Wanted c b → c.plan.cmds.foldl (exec c.dz junk) d b = d b) := by
  rw [exec_fold c.dz junk b _ (commands_kind c), commands_exact c hs hd hw hm]
  constructor
  · rintro ⟨e, he, h1, h2, h3⟩
    have := (marks_iff c b e).2 ⟨h1, h2, h3⟩
    have := List.countP_pos_iff.2 ⟨e, he, this⟩
    rw [if_neg (by omega)]
  · intro h
    rw [if_pos]
    refine List.countP_eq_zero.2 ?_
    intro e he hm
    obtain ⟨h1, h2, h3⟩ := (marks_iff c b e).1 hm
    exact h ⟨e, he, h1, h2, h3⟩

/-- Whole lines that follow one another are in one command: between any two commands for whole lines there is a gap.
Lines of a request are distinct. -/
theorem merged (c : Ctx) (hS : 0 < c.S) (hs : Shape c) (hn : (c.map.map (·.coll)).Nodup)
    (hc : ∀ e ∈ c.map, e.coll < 2 ^ 32) (hw : c.map.length * (c.S * 512) < 2 ^ 32) :
    (c.plan.cmds.filter (fun x => x.len % (c.S * 512) == 0)).Pairwise (fun x y => x.addr + x.len < y.addr) := by
  have hsec : ∀ (m : List Ent) i, ShapeFrom c.S c.map.length i m →
      (c.loop c.map.length i m).1.filter (fun x => x.len % (c.S * 512) == 0) = [] := by
    intro m
    induction m with
    | nil => intro i _; rfl
    | cons e r ih =>
      intro i ⟨h0, h⟩
      simp only [Ctx.loop]
      split
      · exact ih _ h
      · rename_i hf
        have h1 : e.flush = true := by cases h : e.flush <;> simp_all
        have h2 : e.miss = false := by cases h : e.miss <;> simp_all
        obtain ⟨h3, h4, h5, h6⟩ := h0 h1 h2
        split
        · rename_i ha
          have hlen : (e.stop - e.start) * 512 + 512 < c.S * 512 := by
            unfold Ctx.alone at ha
            split at ha
            · simp at ha; omega
            · split at ha
              · simp at ha; omega
              · cases ha
          rw [List.filter_cons, if_neg]
          · exact ih _ h
          · simp only [Ctx.sec, cmd_len, beq_iff_eq]
            rw [Nat.mod_eq_of_lt hlen]; omega
        · exact ih _ h
  unfold Ctx.plan
  split
  · exact List.Pairwise.nil
  · split
    · split
      · exact List.Pairwise.filter _ (List.pairwise_singleton _ _)
      · exact List.Pairwise.nil
    · split
      · exact List.Pairwise.nil
      · simp only [Plan.cmds, List.filter_append]
        rw [hsec c.map 0 (shapeFrom_of _ _ _ _ (by simpa [Shape] using hs)), List.nil_append]
        have hl := loop_len c c.map.length c.map 0
        have hml := Nat.mul_le_mul_right (c.S * 512) hl
        have hsub := loop_sub c c.map.length c.map 0
        have hp := List.mergeSort_perm (c.loop c.map.length 0 c.map).2 (fun a b => decide (a ≤ b))
        refine List.Pairwise.filter _ (runs_apart c hS _ (sort_lt _ (hsub.nodup hn)) ?_ ?_)
        · intro x hx
          obtain ⟨e, he, rfl⟩ := List.mem_map.1 (hsub.subset (hp.mem_iff.1 hx))
          exact hc e he
        · rw [hp.length_eq]; unfold W; omega

/-! ## The running of a call -/

theorem run_inv (c : Ctx) (s : St) (h : Run c s) : Inv c.plan s :=
  Reach.inv (P := Inv c.plan) (fun s (h : s = begin c) => by rw [h]; exact inv_begin c) (inv_step c.plan) s h

/-- `complete` is called at most once, when all commands have been sent and have ended; with the first error the device
reported, or the error with which the call ended at once. `ocf_metadata_error` is called when that is not 0. -/
theorem complete_once (c : Ctx) (s : St) (h : Run c s) (hne : s.out ≠ []) :
    s.todo = [] ∧ s.fly = [] ∧ s.sent = c.plan.cmds ∧ s.rep.length = c.plan.cmds.length ∧
    ∃ e, s.out = [e] ∧ (c.plan = .now e ∨ ((∀ e', c.plan ≠ .now e') ∧ e = firstErr s.rep)) ∧
      (s.merr = true ↔ e ≠ 0) := by
  have hi := run_inv c s h
  rcases hi.out with h0 | ⟨h1, h2, h3, e, h4, h5, h6⟩
  · exact absurd h0 hne
  · have h7 := hi.sent
    have h8 := hi.reps
    rw [h1, List.append_nil] at h7
    rw [h2, h7] at h8
    refine ⟨h1, h2, h7, by simpa using h8, e, h4, h6, ?_⟩
    rw [h5]; simp

/-- Before `complete` is called something remains to be done, by the call or by the device. -/
theorem complete_due (c : Ctx) (s : St) (h : Run c s) (h0 : s.out = []) : ∃ t, Step s t := by
  have hi := run_inv c s h
  cases ht : s.todo with
  | cons x r => exact ⟨_, .send s x r ht⟩
  | nil =>
    rcases (hi.live h0).2 with h1 | h1 | h1
    · exact ⟨_, .put s ht h1⟩
    · obtain ⟨x, r, hx⟩ := List.exists_cons_of_ne_nil h1
      exact ⟨_, .fin s x 0 (by simp [hx])⟩
    · exact absurd ht h1

/-- No run goes on for ever: each step leaves less to do. -/
theorem ends (s t : St) (h : Step s t) : rank t < rank s := rank_step s t h

/-- When nothing more happens, `complete` was called just once and the table is freed. -/
theorem at_end (c : Ctx) (s : St) (h : Run c s) (hq : ∀ t, ¬ Step s t) : s.out.length = 1 ∧ s.tab = false := by
  have h1 : s.out ≠ [] := fun h0 => (complete_due c s h h0).elim hq
  obtain ⟨a, _, _, _, e, he, _⟩ := complete_once c s h h1
  refine ⟨by rw [he]; rfl, ?_⟩
  cases ht : s.tab with
  | false => rfl
  | true =>
    have hh : s.hold = false := by
      rcases (run_inv c s h).out with h0 | ⟨_, _, h3, _⟩
      · exact absurd h0 h1
      · exact h3
    exact absurd (.free s a hh ht) (hq _)

/-- Memory is needed, and a call may fail for it, for more than 32 lines only. -/
theorem no_memory (c : Ctx) : c.plan = .now noMem ↔ c.marked = true ∧ 32 < c.map.length ∧ c.mem = false := by
  unfold Ctx.plan
  by_cases hk : c.marked = false
  · rw [if_pos hk]; simp [hk, noMem]
  · have hk' : c.marked = true := by simpa using hk
    rw [if_neg hk]
    split
    · rename_i e he
      rw [he]
      split <;> simp [noMem]
    · split
      · rename_i h; simp at h; simp [hk', h]
      · rename_i h
        simp at h
        simp only [reduceCtorEq, hk', true_and, false_iff]
        rintro ⟨h1, h2⟩
        simp [h h1] at h2

/-! ## A purge and its flush -/

/-- Byte `b` of the device holds part of the request: it is in the sector where a core sector `n` of the request is
cached. `addr`, `bytes`: the request, on the core. -/
def Cached (c : Ctx) (addr bytes b : Nat) : Prop :=
  ∃ n e, addr / 512 ≤ n ∧ n ≤ (addr + bytes - 1) / 512 ∧ c.map[n / c.S - addr / 512 / c.S]? = some e ∧ e.miss = false ∧
    InSector c.off (e.coll * c.S + n % c.S) b

theorem purge_map (addr bytes : Nat) (c : Ctx) (j : Nat) : (purge addr bytes c).map[j]? =
    (c.map[j]?).map (upd addr bytes c.S c.map.length j) := by
  have := (purgeFrom_spec addr bytes c.map.length 0 c (by simp)).2.2.2.2.2.2 j
  simpa [purge] using this

theorem purge_wanted (addr bytes : Nat) (c : Ctx) (hS : 0 < c.S)
    (hl : c.map.length = (addr + bytes - 1) / 512 / c.S - addr / 512 / c.S + 1)
    (hle : addr / 512 / c.S ≤ (addr + bytes - 1) / 512 / c.S) (b : Nat) :
    Wanted (purge addr bytes c) b ↔ Cached c addr bytes b := by
  obtain ⟨h1, h2, _⟩ := purgeFrom_spec addr bytes c.map.length 0 c (by simp)
  have h1 : (purge addr bytes c).S = c.S := h1
  have h2 : (purge addr bytes c).off = c.off := h2
  unfold Wanted Cached
  rw [h1, h2]
  constructor
  · rintro ⟨e, he, hf, hm, k, hk1, hk2, hb⟩
    obtain ⟨j, hj⟩ := List.mem_iff_getElem?.1 he
    rw [purge_map] at hj
    obtain ⟨e0, hj0, rfl⟩ := Option.map_eq_some_iff.1 hj
    have hjl := (List.getElem?_eq_some_iff.1 hj0).1
    have hm0 : e0.miss = false := by
      cases h : e0.miss with
      | false => rfl
      | true => simp [upd, h] at hm
    simp only [upd, hm0, Bool.false_eq_true, if_false] at hk1 hk2 hb
    have hkS : k < c.S := by
      have := Nat.mod_lt ((addr + bytes - 1) / 512) hS
      split at hk2 <;> omega
    rw [hl] at hk2
    have hsec := (sectors_iff (A := addr / 512) (Z := (addr + bytes - 1) / 512) (j := j) hkS (by omega)).1 ⟨hk1, hk2⟩
    have hdiv : ((addr / 512 / c.S + j) * c.S + k) / c.S = addr / 512 / c.S + j := by
      rw [Nat.mul_comm, Nat.mul_add_div hS, Nat.div_eq_of_lt hkS, Nat.add_zero]
    have hmod : ((addr / 512 / c.S + j) * c.S + k) % c.S = k := by
      rw [Nat.mul_comm, Nat.mul_add_mod, Nat.mod_eq_of_lt hkS]
    refine ⟨(addr / 512 / c.S + j) * c.S + k, e0, hsec.1, hsec.2, ?_, hm0, ?_⟩
    · rw [hdiv, Nat.add_sub_cancel_left]; exact hj0
    · rw [hmod]; exact hb
  · rintro ⟨n, e0, hn1, hn2, hj0, hm0, hb⟩
    have hkS := Nat.mod_lt n hS
    have hd1 := Nat.div_le_div_right (c := c.S) hn1
    have hd2 := Nat.div_le_div_right (c := c.S) hn2
    have hnn : (addr / 512 / c.S + (n / c.S - addr / 512 / c.S)) * c.S + n % c.S = n := by
      rw [Nat.add_sub_cancel' hd1, Nat.mul_comm]; exact Nat.div_add_mod n c.S
    have hsec := (sectors_iff (S := c.S) (A := addr / 512) (Z := (addr + bytes - 1) / 512)
      (j := n / c.S - addr / 512 / c.S) hkS (by omega)).2 (by rw [hnn]; exact ⟨hn1, hn2⟩)
    refine ⟨upd addr bytes c.S c.map.length (n / c.S - addr / 512 / c.S) e0, ?_, ?_, ?_, n % c.S, ?_, ?_, ?_⟩
    · refine List.mem_iff_getElem?.2 ⟨n / c.S - addr / 512 / c.S, ?_⟩
      rw [purge_map, hj0]; rfl
    · simp [upd, hm0]
    · simp [upd, hm0]
    · simp only [upd, hm0, Bool.false_eq_true, if_false]; exact hsec.1
    · simp only [upd, hm0, Bool.false_eq_true, if_false]; rw [hl]; exact hsec.2
    · simp only [upd, hm0, Bool.false_eq_true, if_false]; exact hb

/-- The marks a purge makes are of a contiguous range. -/
theorem purge_shape (addr bytes : Nat) (c : Ctx) (hS : 0 < c.S) (hb : 0 < bytes)
    (hl : c.map.length = (addr + bytes - 1) / 512 / c.S - addr / 512 / c.S + 1) : Shape (purge addr bytes c) := by
  obtain ⟨h1, _, _, _, h5, _⟩ := purgeFrom_spec addr bytes c.map.length 0 c (by simp)
  have h1 : (purge addr bytes c).S = c.S := h1
  have h5 : (purge addr bytes c).map.length = c.map.length := h5
  intro j e hj hf hm
  rw [purge_map] at hj
  obtain ⟨e0, hj0, rfl⟩ := Option.map_eq_some_iff.1 hj
  have hm0 : e0.miss = false := by
    cases h : e0.miss with
    | false => rfl
    | true => simp [upd, h] at hm
  have hA := Nat.mod_lt (addr / 512) hS
  have hZ := Nat.mod_lt ((addr + bytes - 1) / 512) hS
  have hjl := (List.getElem?_eq_some_iff.1 hj0).1
  rw [h1, h5]
  simp only [upd, hm0, Bool.false_eq_true, if_false]
  refine ⟨?_, by split <;> omega, fun h => by simp [h], fun h => by simp [h]⟩
  by_cases hj : j = 0
  · subst hj
    by_cases hz : 0 + 1 = c.map.length
    · simp only [if_true, if_pos hz]
      have hle : addr / 512 ≤ (addr + bytes - 1) / 512 := Nat.div_le_div_right (by omega)
      have hle2 := Nat.div_le_div_right (c := c.S) hle
      have heq : (addr + bytes - 1) / 512 / c.S = addr / 512 / c.S := by omega
      have e1 := Nat.div_add_mod (addr / 512) c.S
      have e2 := Nat.div_add_mod ((addr + bytes - 1) / 512) c.S
      rw [heq] at e2
      omega
    · simp only [if_true, if_neg hz]; omega
  · simp only [if_neg hj]; omega

/-- After a purge of a request and the flush of its marks, the sectors where the request is cached read as zeros, and
the rest of the device is as it was. -/
theorem purge_flush (addr bytes : Nat) (c : Ctx) (hS : 0 < c.S) (hb : 0 < bytes)
    (hl : c.map.length = (addr + bytes - 1) / 512 / c.S - addr / 512 / c.S + 1)
    (hc : ∀ e ∈ c.map, e.miss = true → e.flush = false)
    (hw : c.map.length * (c.S * 512) < 2 ^ 32) (hm : c.mem = true ∨ c.map.length ≤ 32)
    (junk d : Nat → Nat) (b : Nat) :
    (Cached c addr bytes b → (purge addr bytes c).plan.cmds.foldl (exec c.dz junk) d b = 0) ∧
    (¬ Cached c addr bytes b → (purge addr bytes c).plan.cmds.foldl (exec c.dz junk) d b = d b) := by
  obtain ⟨h1, h2, h3, h4, h5, h6, h7⟩ := purgeFrom_spec addr bytes c.map.length 0 c (by simp)
  have h1 : (purge addr bytes c).S = c.S := h1
  have h3 : (purge addr bytes c).dz = c.dz := h3
  have h4 : (purge addr bytes c).mem = c.mem := h4
  have h5 : (purge addr bytes c).map.length = c.map.length := h5
  have hle : addr / 512 / c.S ≤ (addr + bytes - 1) / 512 / c.S :=
    Nat.div_le_div_right (Nat.div_le_div_right (by omega))
  have hd : Said (purge addr bytes c) := by
    intro e he hf
    obtain ⟨j, hj⟩ := List.mem_iff_getElem?.1 he
    rw [purge_map] at hj
    obtain ⟨e0, hj0, rfl⟩ := Option.map_eq_some_iff.1 hj
    refine h6.2 (Or.inr ⟨j, e0, Nat.zero_le _, hj0, ?_⟩)
    cases h : e0.miss with
    | false => rfl
    | true =>
      have := hc e0 (List.mem_of_getElem? hj0) h
      simp [upd, h, this] at hf
  have hn : (purge addr bytes c).plan ≠ .now noMem := by
    rw [Ne, no_memory, h4, h5]
    rintro ⟨_, ha, hb⟩
    rcases hm with hm | hm
    · simp [hm] at hb
    · omega
  have := contents (purge addr bytes c) (purge_shape addr bytes c hS hb hl) hd (by rw [h1, h5]; exact hw) hn junk d b
  rw [purge_wanted addr bytes c hS hl hle, h3] at this
  exact this

/-! ## Cases -/

/-- A request of three lines of eight sectors, from sector 5 of its first to sector 2 of its last; the lines are cached
at 7, 3 and 4. -/
def exReq : Ctx := ⟨8, 4096, true, false, true, [⟨7, false, false, 0, 0⟩, ⟨3, false, false, 0, 0⟩, ⟨4, false, false, 0, 0⟩]⟩

example : (purge 2560 7168 exReq).plan = .send true false
    [⟨true, 4096 + 61 * 512, 3 * 512⟩, ⟨true, 4096 + 32 * 512, 3 * 512⟩, ⟨true, 4096 + 24 * 512, 8 * 512⟩] := by
  decide +kernel

/-- With the last line whole, it and the middle one are in one command. -/
example : (purge 2560 9728 exReq).loop 3 0 (purge 2560 9728 exReq).map = ([⟨true, 4096 + 61 * 512, 3 * 512⟩], [3, 4]) ∧
    (purge 2560 9728 exReq).runs [3, 4] = [⟨true, 4096 + 24 * 512, 16 * 512⟩] := by decide +kernel

example : Cached exReq 2560 7168 (4096 + 24 * 512) :=
  ⟨8, ⟨3, false, false, 0, 0⟩, by decide, by decide, by decide, rfl, by unfold InSector; decide⟩

example : ¬ Wanted exReq 0 := by rintro ⟨e, he, hf, _⟩; simp [exReq] at he; rcases he with rfl | rfl | rfl <;> cases hf

/-- The hypotheses of `purge_flush` hold of it. -/
example : (purge 2560 7168 exReq).plan.cmds.foldl (exec true (fun _ => 9)) (fun _ => 5) (4096 + 24 * 512) = 0 :=
  (purge_flush 2560 7168 exReq (by decide) (by decide) (by decide) (by decide) (by decide) (Or.inl rfl) (fun _ => 9)
    (fun _ => 5) (4096 + 24 * 512)).1
    ⟨8, ⟨3, false, false, 0, 0⟩, by decide, by decide, by decide, rfl, by unfold InSector; decide⟩

/-- A request marked on one line only: its device ends the command with an error. -/
def exOne : Ctx := ⟨8, 0, false, true, false, [⟨2, false, true, 1, 3⟩]⟩

example : exOne.plan = .send false false [⟨false, 17 * 512, 3 * 512⟩] := by decide +kernel

example : ∃ s, Run exOne s ∧ s.out = [-5] ∧ s.merr = true :=
  ⟨_, .step (.step (.init rfl) (.send _ ⟨false, 17 * 512, 3 * 512⟩ [] (by decide +kernel)))
    (.fin _ ⟨false, 17 * 512, 3 * 512⟩ (-5) (by decide +kernel)), by decide +kernel, by decide +kernel⟩

/-- Without the shape, a first line marked only in part from its beginning is made invalid whole. -/
example : (⟨8, 0, true, true, true, [⟨2, false, true, 0, 3⟩, ⟨5, true, false, 0, 0⟩]⟩ : Ctx).plan.cmds =
    [⟨true, 16 * 512, 8 * 512⟩] := by decide +kernel

end Verif.RawAtomic
