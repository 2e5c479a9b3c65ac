import Verif.Lemma.AcpRun

/-! Lemmas about filling the ACP buckets. -/

namespace Verif.Acp

open Verif.Collision (upd upd_same upd_ne)

theorem sched_alru {n : Nat} (hn : n ≤ 2 ^ 32 - 32) {sched : List (Nat × Nat)}
    (h : Sched n shardsCnt sched) : Alru.Sched n Alru.shardsCnt sched := by
  refine ⟨h.1, fun s hs => ?_⟩
  rw [h.2 s hs]
  have hs : s < 32 := hs
  have hend : shardEnd n 32 s = Alru.shardEnd n 32 s := by
    unfold shardEnd Alru.shardEnd
    have hp : portion n 32 = Alru.portion n 32 := rfl
    have hq : Alru.portion n 32 = (n + 31) / 32 := Alru.portion_eq (by omega)
    rw [hp, hq, Nat.mod_eq_of_lt]
    have h1 : (n + 31) / 32 ≤ 2 ^ 27 - 1 := by omega
    calc (n + 31) / 32 * (s + 1) ≤ (2 ^ 27 - 1) * 32 := Nat.mul_le_mul h1 (by omega)
      _ < 2 ^ 32 := by omega
  show List.range' (shardBegin n 32 s) (shardEnd n 32 s - shardBegin n 32 s) =
    List.range' (Alru.shardBegin n 32 s) (Alru.shardEnd n 32 s - Alru.shardBegin n 32 s)
  rw [hend]; rfl

theorem sched_perm {n : Nat} (hn : n ≤ 2 ^ 32 - 32) {sched : List (Nat × Nat)}
    (h : Sched n shardsCnt sched) : (sched.map Prod.snd).Perm (List.range n) := by
  obtain ⟨h1, h2⟩ := Alru.sched_facts (by omega) (sched_alru hn h)
  rw [List.perm_ext_iff_of_nodup h1 List.nodup_range]
  intro c
  rw [h2, List.mem_range]

/-! ## The flags and the counters -/

theorem popLine_flag (ls : Nat) (l : Lines) (sched : List (Nat × Nat)) :
    ∀ (x : (Nat → Bool) × Counts) (c : Nat),
      (sched.foldl (popLine ls l) x).1 c =
        if c ∈ sched.map Prod.snd ∧ l.at_ c ≠ none then l.dirty c else x.1 c := by
  induction sched with
  | nil => intro x c; simp
  | cons y r ih =>
    intro x c
    rw [List.foldl_cons, ih]
    have hy : (popLine ls l x y).1 c = if c = y.2 ∧ l.at_ c ≠ none then l.dirty c else x.1 c := by
      unfold popLine chunkOf
      cases ha : l.at_ y.2 with
      | none =>
        simp only [Option.map_none]
        by_cases e : c = y.2
        · subst e; simp [ha]
        · simp [e]
      | some z =>
        simp only [Option.map_some]
        cases hd : l.dirty y.2 with
        | true =>
          simp only [↓reduceIte]
          by_cases e : c = y.2
          · subst e; rw [upd_same]; simp [ha, hd]
          · rw [upd_ne e]; simp [e]
        | false =>
          simp only [Bool.false_eq_true, ↓reduceIte]
          by_cases e : c = y.2
          · subst e; rw [upd_same]; simp [ha, hd]
          · rw [upd_ne e]; simp [e]
    rw [hy]
    simp only [List.map_cons, List.mem_cons]
    grind

/-- A dirty line of chunk `k`. -/
def dirtyIn (ls : Nat) (l : Lines) (k : Key) (c : Nat) : Bool :=
  l.dirty c && (chunkOf ls l c == some k)

theorem popLine_cnt (ls : Nat) (l : Lines) (sched : List (Nat × Nat)) (s : Nat) (k : Key) :
    ∀ (x : (Nat → Bool) × Counts),
      (sched.foldl (popLine ls l) x).2 s k % 2 ^ 16 =
        (x.2 s k + sched.countP fun y => y.1 == s && dirtyIn ls l k y.2) % 2 ^ 16 := by
  induction sched with
  | nil => intro x; simp
  | cons y r ih =>
    intro x
    rw [List.foldl_cons, ih, List.countP_cons]
    have hy : (popLine ls l x y).2 s k % 2 ^ 16 =
        (x.2 s k + if (y.1 == s && dirtyIn ls l k y.2) = true then 1 else 0) % 2 ^ 16 := by
      unfold popLine dirtyIn
      cases hk : chunkOf ls l y.2 with
      | none => simp
      | some j =>
        simp only
        cases hd : l.dirty y.2 with
        | false => simp
        | true =>
          simp only [↓reduceIte, Bool.true_and]
          by_cases e : s = y.1
          · subst e
            rw [upd_same]
            by_cases e' : k = j
            · subst e'
              rw [updK_same]
              unfold inc16
              simp
            · rw [updK_ne e']
              simp [Ne.symm e']
          · rw [upd_ne e]
            have : (y.1 == s) = false := by simpa using Ne.symm e
            simp [this]
    omega

theorem popLine_cnt_lt (ls : Nat) (l : Lines) (sched : List (Nat × Nat)) (s : Nat) (k : Key) :
    ∀ (x : (Nat → Bool) × Counts), x.2 s k < 2 ^ 16 →
      (sched.foldl (popLine ls l) x).2 s k < 2 ^ 16 := by
  induction sched with
  | nil => intro x h; exact h
  | cons y r ih =>
    intro x h
    rw [List.foldl_cons]
    refine ih _ ?_
    unfold popLine
    cases hk : chunkOf ls l y.2 with
    | none => exact h
    | some j =>
      simp only
      split
      · by_cases e : s = y.1
        · subst e
          simp only [upd_same]
          by_cases e' : k = j
          · subst e'; rw [updK_same]; unfold inc16; omega
          · rw [updK_ne e']; exact h
        · simp only [upd_ne e]; exact h
      · exact h

/-- Counting by shards. -/
theorem countP_shards (p : Nat → Bool) (sched : List (Nat × Nat)) :
    ∀ m, (((List.range m).map fun s => sched.countP fun y => y.1 == s && p y.2).sum) =
      sched.countP fun y => decide (y.1 < m) && p y.2 := by
  intro m
  induction m with
  | zero => simp
  | succ m ih =>
    rw [List.range_succ, List.map_append, List.sum_append, ih, List.map_singleton,
      List.sum_singleton]
    clear ih
    induction sched with
    | nil => rfl
    | cons y r ih =>
      rw [List.countP_cons, List.countP_cons, List.countP_cons, ← ih]
      by_cases h1 : y.1 < m
      · have h2 : y.1 < m + 1 := by omega
        have h3 : (y.1 == m) = false := by simp; omega
        simp only [h1, h2, h3, decide_true, Bool.true_and, Bool.false_and, Bool.false_eq_true,
          ↓reduceIte]
        omega
      · by_cases h4 : y.1 = m
        · have h2 : y.1 < m + 1 := by omega
          have h3 : (y.1 == m) = true := by simp [h4]
          simp only [h1, h2, h3, decide_true, decide_false, Bool.true_and, Bool.false_and,
            Bool.false_eq_true, ↓reduceIte]
          omega
        · have h2 : ¬ y.1 < m + 1 := by omega
          have h3 : (y.1 == m) = false := by simp [h4]
          simp only [h1, h2, h3, decide_false, Bool.false_and, Bool.false_eq_true, ↓reduceIte]
          omega

theorem foldl_mod (f : Nat → Nat) : ∀ (xs : List Nat) (acc : Nat),
    xs.foldl (fun acc s => (acc + f s) % 2 ^ 16) acc % 2 ^ 16 = (acc + (xs.map f).sum) % 2 ^ 16
  | [], acc => by simp
  | x :: r, acc => by
    rw [List.foldl_cons, foldl_mod f r]
    simp only [List.map_cons, List.sum_cons]
    omega

theorem foldl_mod_lt (f : Nat → Nat) : ∀ (xs : List Nat) (acc : Nat), acc < 2 ^ 16 →
    xs.foldl (fun acc s => (acc + f s) % 2 ^ 16) acc < 2 ^ 16
  | [], acc, h => h
  | x :: r, acc, _ => by
    rw [List.foldl_cons]
    exact foldl_mod_lt f r _ (Nat.mod_lt _ (by omega))

theorem sum_mod_congr {f g : Nat → Nat} : ∀ (xs : List Nat), (∀ s ∈ xs, f s % 2 ^ 16 = g s % 2 ^ 16) →
    (xs.map f).sum % 2 ^ 16 = (xs.map g).sum % 2 ^ 16
  | [], _ => rfl
  | x :: r, h => by
    have h1 := h x (by simp)
    have h2 := sum_mod_congr r fun s hs => h s (by simp [hs])
    simp only [List.map_cons, List.sum_cons]
    omega

/-- The sum over the shards is the number of dirty lines of the chunk. -/
theorem sumShards_eq {ls : Nat} (hv : ValidLs ls) {l : Lines} (hn : l.n ≤ 2 ^ 32 - 32)
    (inj : ∀ c d x, l.at_ c = some x → l.at_ d = some x → c = d) {sched : List (Nat × Nat)}
    (hs : Sched l.n shardsCnt sched) (f : Nat → Bool) (k : Key) :
    sumShards (sched.foldl (popLine ls l) (f, fun _ _ => 0)).2 k = flagged ls l l.dirty k := by
  have hle := flagged_le hv inj l.dirty k
  have hp := perChunk_facts hv
  have hlt : sumShards (sched.foldl (popLine ls l) (f, fun _ _ => 0)).2 k < 2 ^ 16 :=
    foldl_mod_lt _ _ _ (by omega)
  have e1 : sumShards (sched.foldl (popLine ls l) (f, fun _ _ => 0)).2 k % 2 ^ 16 =
      (((List.range shardsCnt).map fun s =>
        (sched.foldl (popLine ls l) (f, fun _ _ => 0)).2 s k).sum) % 2 ^ 16 := by
    unfold sumShards
    rw [foldl_mod, Nat.zero_add]
  have e2 : (((List.range shardsCnt).map fun s =>
        (sched.foldl (popLine ls l) (f, fun _ _ => 0)).2 s k).sum) % 2 ^ 16 =
      (((List.range shardsCnt).map fun s =>
        sched.countP fun y => y.1 == s && dirtyIn ls l k y.2).sum) % 2 ^ 16 := by
    refine sum_mod_congr _ fun s _ => ?_
    rw [popLine_cnt, Nat.zero_add]
  have e3 : (sched.countP fun y => decide (y.1 < shardsCnt) && dirtyIn ls l k y.2) =
      (sched.map Prod.snd).countP (dirtyIn ls l k) := by
    rw [List.countP_map]
    refine List.countP_congr fun y hy => ?_
    have := hs.1 y hy
    simp [this]
  have e4 : (sched.map Prod.snd).countP (dirtyIn ls l k) = flagged ls l l.dirty k :=
    (sched_perm hn hs).countP_eq _
  rw [countP_shards, e3, e4] at e2
  omega

/-! ## The buckets -/

theorem popBucket_spec {ls num : Nat} (hv : ValidLs ls) : ∀ (fuel b : Nat), fuel + b = 11 → 1 ≤ b →
    (b - 1) * (perChunk ls / 10) ≤ num →
    1 ≤ popBucket ls num fuel b ∧ Low (perChunk ls / 10) (popBucket ls num fuel b - 1) num
  | 0, b, hf, h1, h2 => by
    unfold popBucket
    exact ⟨h1, by omega, h2, by omega⟩
  | fuel + 1, b, hf, h1, h2 => by
    unfold popBucket
    rw [thr_eq hv (by omega : b ≤ 10)]
    by_cases c : num < b * (perChunk ls / 10)
    · rw [if_pos c]
      refine ⟨h1, by omega, h2, fun _ => ?_⟩
      rw [Nat.sub_add_cancel h1]; exact c
    · rw [if_neg c]
      exact popBucket_spec hv fuel (b + 1) (by omega) (by omega)
        (by simp only [Nat.add_sub_cancel]; omega)

theorem popChunk_fold (cnt : Counts) : ∀ (ks : List Key) (a : Ctx), Wf a → (∀ k ∈ ks, Present a k) →
    Wf (ks.foldl (popChunk cnt) a) ∧ (ks.foldl (popChunk cnt) a).ls = a.ls ∧
      (ks.foldl (popChunk cnt) a).tab = a.tab ∧ (ks.foldl (popChunk cnt) a).total = a.total ∧
      (ks.foldl (popChunk cnt) a).flag = a.flag ∧
      ∀ k, (ks.foldl (popChunk cnt) a).chunk k = if k ∈ ks then
          { a.chunk k with num := sumShards cnt k,
                           bucket := popBucket a.ls (sumShards cnt k) (maxBuckets - 1) 1 - 1 }
        else a.chunk k
  | [], a, w, _ => ⟨w, rfl, rfl, rfl, rfl, fun k => by simp⟩
  | k :: r, a, w, hp => by
    obtain ⟨m, hm, hlt⟩ := hp k (by simp)
    have w' : Wf (popChunk cnt a k) :=
      move_wf w hm hlt (moveTail_mem w.nodup) (moveTail_nodup w.nodup) _
    obtain ⟨h1, h2, h3, h4, h5, h6⟩ := popChunk_fold cnt r (popChunk cnt a k) w'
      fun j hj => hp j (by simp [hj])
    refine ⟨h1, h2, h3, h4, h5, fun j => ?_⟩
    rw [List.foldl_cons, h6]
    have hc : (popChunk cnt a k).chunk j = if j = k then
        { a.chunk k with num := sumShards cnt k,
                         bucket := popBucket a.ls (sumShards cnt k) (maxBuckets - 1) 1 - 1 }
        else a.chunk j := rfl
    rw [hc]
    by_cases e : j = k
    · subst e
      by_cases e' : j ∈ r
      · simp only [e', List.mem_cons_self, ↓reduceIte]; rfl
      · simp only [e', List.mem_cons_self, ↓reduceIte]
    · by_cases e' : j ∈ r
      · simp only [e', e, List.mem_cons, or_true, ↓reduceIte]; rfl
      · simp only [e', e, List.mem_cons, or_self, ↓reduceIte]

theorem mem_allKeys {a : Ctx} {cores : Cores} (t : TabOk a cores) (k : Key) :
    k ∈ allKeys cores ↔ Present a k := by
  unfold allKeys
  rw [List.mem_flatMap]
  constructor
  · rintro ⟨⟨core, size⟩, hx, hk⟩
    have hk := mem_keys.1 hk
    refine ⟨numChunks size, (t.tab _ _).2 ⟨size, ?_, rfl⟩, hk.2⟩
    rw [hk.1]; exact hx
  · rintro ⟨m, hm, hk⟩
    obtain ⟨size, hs, e⟩ := (t.tab _ _).1 hm
    exact ⟨(k.1, size), hs, mem_keys.2 ⟨rfl, by rw [← e]; exact hk⟩⟩

theorem populate_ok {a : Ctx} (hv : ValidLs a.ls) {l : Lines} (hn : l.n ≤ 2 ^ 32 - 32)
    (inj : ∀ c d x, l.at_ c = some x → l.at_ d = some x → c = d) {cores : Cores} (w : Wf a)
    (t : TabOk a cores) {sched : List (Nat × Nat)} (hs : Sched l.n shardsCnt sched)
    (touched : Key → Bool) (ht : ∀ k, touched k = false) :
    CtxOk (populate a l cores sched) l touched ∧ TabOk (populate a l cores sched) cores ∧
      (populate a l cores sched).ls = a.ls ∧
      (∀ c, c < l.n → l.at_ c ≠ none → (populate a l cores sched).flag c = l.dirty c) ∧
      (∀ k, ((populate a l cores sched).chunk k).ts = (a.chunk k).ts) := by
  have hw0 : Wf { a with flag := (sched.foldl (popLine a.ls l) (a.flag, fun _ _ => 0)).1 } :=
    ⟨w.mem, w.nodup⟩
  obtain ⟨h1, h2, h3, h4, h5, h6⟩ := popChunk_fold
    (sched.foldl (popLine a.ls l) (a.flag, fun _ _ => 0)).2 (allKeys cores)
    { a with flag := (sched.foldl (popLine a.ls l) (a.flag, fun _ _ => 0)).1 } hw0
    (fun k hk => (mem_allKeys t k).1 hk)
  have hP : populate a l cores sched = (allKeys cores).foldl
      (popChunk (sched.foldl (popLine a.ls l) (a.flag, fun _ _ => 0)).2)
      { a with flag := (sched.foldl (popLine a.ls l) (a.flag, fun _ _ => 0)).1 } := rfl
  rw [← hP] at h1 h2 h3 h4 h5 h6
  have hflag : ∀ c, c < l.n → l.at_ c ≠ none → (populate a l cores sched).flag c = l.dirty c := by
    intro c hc hm
    rw [h5]
    show (sched.foldl (popLine a.ls l) (a.flag, fun _ _ => 0)).1 c = _
    rw [popLine_flag, if_pos]
    exact ⟨(sched_perm hn hs).mem_iff.2 (List.mem_range.2 hc), hm⟩
  have hpres : ∀ k, Present (populate a l cores sched) k → k ∈ allKeys cores := by
    rintro k ⟨m, hm, hk⟩
    exact (mem_allKeys t k).2 ⟨m, by rw [h3] at hm; exact hm, hk⟩
  have hnum : ∀ k, Present (populate a l cores sched) k →
      ((populate a l cores sched).chunk k).num = flagged a.ls l l.dirty k ∧
      Low (perChunk a.ls / 10) ((populate a l cores sched).chunk k).bucket
        (flagged a.ls l l.dirty k) := by
    intro k hk
    rw [h6, if_pos (hpres k hk)]
    simp only
    rw [sumShards_eq hv hn inj hs]
    exact ⟨rfl, (popBucket_spec hv 10 1 (by omega) (by omega) (by omega)).2⟩
  refine ⟨⟨h1, ?_, ?_, ?_⟩, ⟨t.nodup, ?_, ?_⟩, h2, hflag, ?_⟩
  · intro k hk
    rw [(hnum k hk).1, h2]
    unfold flagged
    refine countP_range_congr fun c hc => ?_
    cases ha : l.at_ c with
    | none =>
      have : chunkOf a.ls l c = none := by unfold chunkOf; rw [ha]; rfl
      rw [this]; simp
    | some x => rw [hflag c hc (by rw [ha]; simp)]
  · intro k _ h; rw [ht k] at h; cases h
  · intro k hk _
    rw [(hnum k hk).1, h2]
    exact (hnum k hk).2
  · intro c m; rw [h3]; exact t.tab c m
  · rw [h4]; exact t.total
  · intro k; rw [h6]; split <;> rfl

end Verif.Acp
