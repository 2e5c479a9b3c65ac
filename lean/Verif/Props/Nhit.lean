import Verif.Lemma.Nhit
import Verif.Lemma.Common

/-!
C26: the promotion filter counts accesses exactly.
-/

namespace Verif.Nhit

open Verif.Collision (upd)

/-! ### Specification: a queue of bounded length with a count for each core line -/

/-- Tracked core lines, oldest first, with the accesses counted. -/
abbrev Queue := List (Key × Nat)

/-- What an access does: a tracked core line is counted; another one becomes the newest, and the oldest one is
dropped if there is no room. -/
def Queue.access (N : Nat) (q : Queue) (k : Key) : Queue :=
  if k ∈ q.map (·.1) then q.map fun x => if x.1 = k then (k, x.2 + 1) else x
  else (if q.length < N then q else q.tail) ++ [(k, 1)]

/-- What a purge does. -/
def Queue.purge (q : Queue) (k : Key) : Queue := q.map fun x => if x.1 = k then (k, 0) else x

/-- The count of a core line, if it is tracked. -/
def Queue.count (q : Queue) (k : Key) : Option Nat := (q.find? fun x => decide (x.1 = k)).map (·.2)

/-- Accesses and purges. -/
inductive Op where
  | access (k : Key)
  | purge (k : Key)
deriving DecidableEq

/-- What the queue does. -/
def Queue.op (N : Nat) (q : Queue) : Op → Queue
  | .access k => q.access N k
  | .purge k => q.purge k

/-- What the code does. -/
def runOp (thr : Nat) (t : Table) : Op → Table
  | .access k => (access t thr k).1
  | .purge k => setOcc t k 0

/-! ### Without concurrency: the table is the queue -/

/-- Content of a slot. -/
def entry (t : Table) (c : Nat) : Option (Key × Nat) := (t.key c).map fun k => (k, t.cnt c)

/-- Content of the ring, from the oldest slot on. -/
def ring (t : Table) : Queue := (List.range t.N).filterMap fun j => entry t ((t.ptr + j) % t.N)

/-- The table represents the queue. -/
structure Sim (t : Table) (q : Queue) : Prop where
  rep : ∃ b, Rep t b
  valid : ∀ c, c < t.N → t.valid c = true
  inj : ∀ c c' k, c < t.N → c' < t.N → t.key c = some k → t.key c' = some k → c = c'
  fill : (∀ c, c < t.N → t.key c ≠ none) ∨ (∀ c, c < t.N → (t.key c ≠ none ↔ c < t.ptr))
  queue : ring t = q.map fun x => (x.1, x.2 % 2 ^ 32)

theorem slot_of {N p c : Nat} (hp : p < N) (hc : c < N) : ∃ j, j < N ∧ (p + j) % N = c := by
  by_cases h : p ≤ c
  · exact ⟨c - p, by omega, by rw [show p + (c - p) = c by omega]; exact Nat.mod_eq_of_lt hc⟩
  · refine ⟨N - p + c, by omega, ?_⟩
    rw [show p + (N - p + c) = c + N by omega, Nat.add_mod_right]
    exact Nat.mod_eq_of_lt hc

theorem mem_ring {t : Table} {b : Nat → List Nat} (r : Rep t b) (k : Key) (n : Nat) :
    (k, n) ∈ ring t ↔ ∃ c, c < t.N ∧ t.key c = some k ∧ t.cnt c = n := by
  unfold ring
  simp only [List.mem_filterMap, List.mem_range, entry, Option.map_eq_some_iff]
  constructor
  · rintro ⟨j, hj, k', h1, h2⟩
    cases h2
    exact ⟨_, Nat.mod_lt _ r.posN, h1, rfl⟩
  · rintro ⟨c, hc, h1, h2⟩
    obtain ⟨j, hj, e⟩ := slot_of r.ptr hc
    exact ⟨j, hj, k, by rw [e]; exact h1, by rw [e, h2]⟩

theorem Sim.tracked {t : Table} {q : Queue} (s : Sim t q) (k : Key) :
    k ∈ q.map (·.1) ↔ ∃ c, c < t.N ∧ t.key c = some k := by
  obtain ⟨b, r⟩ := s.rep
  have : k ∈ q.map (·.1) ↔ ∃ n, (k, n) ∈ ring t := by
    rw [s.queue]
    simp only [List.mem_map]
    constructor
    · rintro ⟨x, h, rfl⟩; exact ⟨_, x, h, rfl⟩
    · rintro ⟨n, x, h, e⟩; exact ⟨x, h, congrArg Prod.fst e⟩
  rw [this]
  constructor
  · rintro ⟨n, h⟩
    obtain ⟨c, h1, h2, _⟩ := (mem_ring r k n).1 h
    exact ⟨c, h1, h2⟩
  · rintro ⟨c, h1, h2⟩
    exact ⟨_, (mem_ring r k _).2 ⟨c, h1, h2, rfl⟩⟩

/-- Changing the counter of the slot of a core line. -/
theorem ring_upd {t : Table} {q : Queue} (s : Sim t q) {k : Key} {c : Nat} (hc : c < t.N) (hk : t.key c = some k)
    (v : Nat) :
    ring { t with cnt := upd t.cnt c v } = (ring t).map fun x => if x.1 = k then (k, v) else x := by
  obtain ⟨b, r⟩ := s.rep
  unfold ring
  rw [List.map_filterMap]
  refine List.filterMap_congr (fun j _ => ?_)
  have hl : (t.ptr + j) % t.N < t.N := Nat.mod_lt _ r.posN
  simp only [entry]
  generalize (t.ptr + j) % t.N = d at hl
  cases hd : t.key d with
  | none => rfl
  | some k' =>
    simp only [Option.map_some, Option.some.injEq]
    by_cases e : k' = k
    · subst e
      have := s.inj d c _ hl hc hd hk
      subst this
      simp [upd]
    · have : d ≠ c := fun e' => e (by rw [e', hk] at hd; cases hd; rfl)
      simp [upd, this, e]

theorem find_iff {t : Table} {q : Queue} (s : Sim t q) (k : Key) (c : Nat) :
    find t k = some c ↔ c < t.N ∧ t.key c = some k := by
  obtain ⟨b, r⟩ := s.rep
  constructor
  · exact r.find_some
  · rintro ⟨h1, h2⟩
    cases hf : find t k with
    | none => exact absurd h2 (r.find_none hf c h1)
    | some d => rw [s.inj c d k h1 (r.find_some hf).1 h2 (r.find_some hf).2]

theorem sim_upd {t : Table} {q : Queue} (s : Sim t q) {k : Key} {c : Nat} (hc : c < t.N) (hk : t.key c = some k)
    (v : Nat) (f : Nat → Nat) (hv : ∀ x ∈ q, x.1 = k → v = f x.2 % 2 ^ 32) :
    Sim { t with cnt := upd t.cnt c v } (q.map fun x => if x.1 = k then (k, f x.2) else x) := by
  obtain ⟨b, r⟩ := s.rep
  refine ⟨⟨b, r.frame rfl rfl rfl rfl rfl rfl r.ptr⟩, s.valid, s.inj, s.fill, ?_⟩
  rw [ring_upd s hc hk, s.queue, List.map_map, List.map_map]
  refine List.map_congr_left (fun x hx => ?_)
  by_cases e : x.1 = k
  · simp [e, hv x hx e]
  · simp [e]

theorem sim_cnt {t : Table} {q : Queue} (s : Sim t q) {k : Key} {c : Nat} (hc : c < t.N) (hk : t.key c = some k) :
    ∀ x ∈ q, x.1 = k → t.cnt c = x.2 % 2 ^ 32 := by
  obtain ⟨b, r⟩ := s.rep
  intro x hx e
  have : (k, x.2 % 2 ^ 32) ∈ ring t := by
    rw [s.queue, List.mem_map]
    exact ⟨x, hx, by rw [e]⟩
  obtain ⟨d, h1, h2, h3⟩ := (mem_ring r _ _).1 this
  rw [← h3, s.inj c d k hc h1 hk h2]

/-- The ring without its oldest slot, and that slot. -/
theorem ring_head {t : Table} {b : Nat → List Nat} (r : Rep t b) :
    ring t = (entry t t.ptr).toList ++
      (List.range (t.N - 1)).filterMap fun j => entry t ((t.ptr + 1 + j) % t.N) := by
  obtain ⟨m, hm⟩ : ∃ m, t.N = m + 1 := ⟨t.N - 1, by have := r.posN; omega⟩
  have hp := r.ptr
  unfold ring
  rw [hm, List.range_succ_eq_map, List.filterMap_cons]
  have h0 : (t.ptr + 0) % (m + 1) = t.ptr := Nat.mod_eq_of_lt (by omega)
  rw [h0, List.filterMap_map]
  have : ((fun j => entry t ((t.ptr + j) % (m + 1))) ∘ Nat.succ) =
      fun j => entry t ((t.ptr + 1 + j) % (m + 1)) := by
    funext j
    show entry t ((t.ptr + (j + 1)) % (m + 1)) = _
    rw [show t.ptr + (j + 1) = t.ptr + 1 + j by omega]
  rw [this]
  cases entry t t.ptr <;> simp

theorem ring_insert {t : Table} {b : Nat → List Nat} (r : Rep t b) (u : Table) (hN : u.N = t.N)
    (hp : u.ptr = (t.ptr + 1) % t.N) (k : Key)
    (hu : ∀ x, entry u x = if x = t.ptr then some (k, 1) else entry t x) :
    ring u = ((List.range (t.N - 1)).filterMap fun j => entry t ((t.ptr + 1 + j) % t.N)) ++ [(k, 1)] := by
  obtain ⟨m, hm⟩ : ∃ m, t.N = m + 1 := ⟨t.N - 1, by have := r.posN; omega⟩
  have hlt := r.ptr
  unfold ring
  rw [hN, hp, hm, List.range_succ, List.filterMap_append]
  have e : ∀ j, ((t.ptr + 1) % (m + 1) + j) % (m + 1) = (t.ptr + 1 + j) % (m + 1) := fun j => by
    rw [Nat.mod_add_mod]
  have hlast : (t.ptr + 1 + m) % (m + 1) = t.ptr := by
    rw [show t.ptr + 1 + m = t.ptr + (m + 1) by omega, Nat.add_mod_right]
    exact Nat.mod_eq_of_lt (by omega)
  congr 1
  · refine List.filterMap_congr (fun j hj => ?_)
    have hj : j < m := by simpa using hj
    rw [e, hu, if_neg]
    intro h
    have h1 : (t.ptr + 1 + j) % (m + 1) = (t.ptr + 1 + m) % (m + 1) := h.trans hlast.symm
    have h2 : (t.ptr + 1 + j) = (m + 1) * ((t.ptr + 1 + j) / (m + 1)) + t.ptr := by
      have := Nat.div_add_mod (t.ptr + 1 + j) (m + 1); omega
    have h3 : (t.ptr + 1 + j) / (m + 1) = 0 ∨ 1 ≤ (t.ptr + 1 + j) / (m + 1) := Nat.eq_zero_or_pos _
    rcases h3 with h3 | h3
    · rw [h3] at h2; omega
    · have := Nat.mul_le_mul_left (m + 1) h3
      omega
  · simp only [List.filterMap_cons, List.filterMap_nil]
    rw [e, hlast, hu, if_pos rfl]

theorem insert_eq {t : Table} {q : Queue} (s : Sim t q) (k : Key) :
    insert t k = commit (replace (getSlot t).1 t.ptr k) t.ptr := by
  obtain ⟨b, r⟩ := s.rep
  have := s.valid t.ptr r.ptr
  simp [insert, getSlot, this]

theorem sim_insert {t : Table} {q : Queue} (s : Sim t q) (k : Key) (hk : ∀ c, c < t.N → t.key c ≠ some k) :
    Sim (insert t k) ((if q.length < t.N then q else q.tail) ++ [(k, 1)]) := by
  obtain ⟨b, r⟩ := s.rep
  rw [insert_eq s]
  have hlt := r.ptr
  have g := rep_getSlot r
  obtain ⟨b', r'⟩ := rep_replace g (c := t.ptr) k hlt
  have hrep := rep_commit r' t.ptr
  have hsame := replace_same (getSlot t).1 t.ptr k
  have hN : (commit (replace (getSlot t).1 t.ptr k) t.ptr).N = t.N := hsame.1
  have hP : (commit (replace (getSlot t).1 t.ptr k) t.ptr).ptr = (t.ptr + 1) % t.N := hsame.2.2.2
  have hK : ∀ x, (commit (replace (getSlot t).1 t.ptr k) t.ptr).key x = if x = t.ptr then some k else t.key x :=
    fun x => replace_key (getSlot t).1 t.ptr k x
  have hC : ∀ x, (commit (replace (getSlot t).1 t.ptr k) t.ptr).cnt x = if x = t.ptr then 1 else t.cnt x :=
    fun x => replace_cnt (getSlot t).1 t.ptr k x
  have hV : ∀ x, (commit (replace (getSlot t).1 t.ptr k) t.ptr).valid x =
      if x = t.ptr then true else t.valid x := by
    intro x
    show upd (replace (getSlot t).1 t.ptr k).valid t.ptr true x = _
    rw [hsame.2.2.1]
    show upd (upd t.valid t.ptr false) t.ptr true x = _
    unfold upd; split <;> rfl
  generalize commit (replace (getSlot t).1 t.ptr k) t.ptr = u at *
  have hE : ∀ x, entry u x = if x = t.ptr then some (k, 1) else entry t x := by
    intro x
    unfold entry
    rw [hK, hC]
    split <;> rfl
  refine ⟨⟨b', hrep⟩, ?_, ?_, ?_, ?_⟩
  · intro c hc
    rw [hV]
    split
    · rfl
    · exact s.valid c (hN ▸ hc)
  · intro c c' k' hc hc' h1 h2
    rw [hN] at hc hc'
    rw [hK] at h1 h2
    have hi := s.inj c c' k' hc hc'
    have a := hk c hc
    have a' := hk c' hc'
    split at h1 <;> split at h2
    · omega
    · cases h1; exact absurd h2 a'
    · cases h2; exact absurd h1 a
    · exact hi h1 h2
  · rw [hN, hP]
    rcases s.fill with h | h
    · left
      intro c hc
      rw [hK]
      split
      · simp
      · exact h c hc
    · by_cases e : t.ptr + 1 = t.N
      · left
        intro c hc
        rw [hK]
        split
        · simp
        · exact (h c hc).2 (by omega)
      · right
        intro c hc
        rw [hK, Nat.mod_eq_of_lt (by omega : t.ptr + 1 < t.N)]
        split
        · simp; omega
        · rw [h c hc]; omega
  · rw [ring_insert r u hN hP k hE]
    have hr := ring_head r
    rw [s.queue] at hr
    have hfull : q.length = ((List.range t.N).filterMap fun j => entry t ((t.ptr + j) % t.N)).length := by
      have : (ring t).length = q.length := by rw [s.queue, List.length_map]
      exact this.symm
    cases hp : t.key t.ptr with
    | none =>
      have he : entry t t.ptr = none := by simp [entry, hp]
      rw [he] at hr
      have hl : q.length < t.N := by
        have h1 := congrArg List.length hr
        simp only [List.length_map, Option.toList, List.nil_append] at h1
        have h2 := List.length_filterMap_le (fun j => entry t ((t.ptr + 1 + j) % t.N)) (List.range (t.N - 1))
        rw [← h1, List.length_range] at h2
        have := r.posN
        omega
      rw [if_pos hl]
      simp only [Option.toList, List.nil_append] at hr
      rw [← hr]; simp
    | some k0 =>
      have he : entry t t.ptr = some (k0, t.cnt t.ptr) := by simp [entry, hp]
      rw [he] at hr
      have hall : ∀ c, c < t.N → t.key c ≠ none := by
        rcases s.fill with h | h
        · exact h
        · have := (h t.ptr hlt).1 (by rw [hp]; simp)
          omega
      have hl : ¬ q.length < t.N := by
        rw [hfull]
        have : ((List.range t.N).filterMap fun j => entry t ((t.ptr + j) % t.N)).length = (List.range t.N).length := by
          rw [List.filterMap_length_eq_length]
          intro j _
          have := hall _ (Nat.mod_lt (t.ptr + j) r.posN)
          unfold entry
          cases h : t.key ((t.ptr + j) % t.N) with
          | none => exact absurd h this
          | some _ => rfl
        rw [this, List.length_range]
        omega
      rw [if_neg hl]
      cases q with
      | nil => simp at hr
      | cons x q =>
        simp only [List.map_cons, Option.toList, List.cons_append, List.nil_append, List.cons.injEq] at hr
        rw [← hr.2]; simp

theorem sim_access {t : Table} {q : Queue} (s : Sim t q) (thr : Nat) (k : Key) :
    Sim (access t thr k).1 (q.access t.N k) := by
  obtain ⟨b, r⟩ := s.rep
  unfold Queue.access
  have ht := s.tracked k
  cases hf : find t k with
  | none =>
    have hn := r.find_none hf
    have : ¬ k ∈ q.map (·.1) := fun h => by
      obtain ⟨c, h1, h2⟩ := ht.1 h
      exact hn c h1 h2
    rw [if_neg this]
    have : access t thr k = (insert t k, false) := by simp [access, query, hf]
    rw [this]
    exact sim_insert s k hn
  | some c =>
    obtain ⟨hc, hk⟩ := r.find_some hf
    rw [if_pos (ht.2 ⟨c, hc, hk⟩)]
    have : (access t thr k).1 = { t with cnt := upd t.cnt c ((t.cnt c + 1) % 2 ^ 32) } := by
      simp [access, query, hf]
    rw [this]
    refine sim_upd s hc hk _ (· + 1) (fun x hx e => ?_)
    rw [sim_cnt s hc hk x hx e]
    simp

theorem sim_purge {t : Table} {q : Queue} (s : Sim t q) (k : Key) : Sim (setOcc t k 0) (q.purge k) := by
  obtain ⟨b, r⟩ := s.rep
  unfold setOcc Queue.purge
  have ht := s.tracked k
  cases hf : find t k with
  | none =>
    have hn := r.find_none hf
    have : (q.map fun x => if x.1 = k then (k, 0) else x) = q := by
      rw [List.map_congr_left (g := id), List.map_id]
      intro x hx
      rw [if_neg]
      · rfl
      · intro e
        obtain ⟨c, h1, h2⟩ := ht.1 (List.mem_map.2 ⟨x, hx, e⟩)
        exact hn c h1 h2
    rw [this]
    exact s
  | some c =>
    obtain ⟨hc, hk⟩ := r.find_some hf
    exact sim_upd s hc hk 0 (fun _ => 0) (fun x hx e => rfl)

theorem access_N {t : Table} {q : Queue} (s : Sim t q) (thr : Nat) (k : Key) : (access t thr k).1.N = t.N := by
  cases hf : find t k with
  | none =>
    have : access t thr k = (insert t k, false) := by simp [access, query, hf]
    rw [this, insert_eq s]
    exact (replace_same (getSlot t).1 t.ptr k).1
  | some c => simp [access, query, hf]

theorem op_N {t : Table} {q : Queue} (s : Sim t q) (thr : Nat) (o : Op) : (runOp thr t o).N = t.N := by
  cases o with
  | access k => exact access_N s thr k
  | purge k => exact (setOcc_same t k 0).1

theorem sim_init {N H : Nat} (hN : 0 < N) (hH : 0 < H) : Sim (init N H) [] := by
  refine ⟨⟨_, rep_init hN hH⟩, fun _ _ => rfl, fun _ _ _ _ _ h => by simp [init] at h, ?_, ?_⟩
  · right; intro c hc; simp [init]
  · simp [ring, entry, init]

/-- C26. For every history of accesses and purges, the table holds exactly what a queue of the same length holds:
nothing is lost, nothing is tracked twice, and the ring wraps around by dropping the oldest core line. -/
theorem tracks_exactly {N H thr : Nat} (hN : 0 < N) (hH : 0 < H) (ops : List Op) :
    Sim (ops.foldl (runOp thr) (init N H)) (ops.foldl (Queue.op N) []) := by
  have key : ∀ (ops : List Op) (t : Table) (q : Queue), t.N = N → Sim t q →
      Sim (ops.foldl (runOp thr) t) (ops.foldl (Queue.op N) q) := by
    intro ops
    induction ops with
    | nil => intro t q _ h; exact h
    | cons o ops ih =>
      intro t q ht h
      refine ih _ _ (by rw [op_N h, ht]) ?_
      cases o with
      | access k => exact ht ▸ sim_access h thr k
      | purge k => exact sim_purge h k
  exact key ops _ _ rfl (sim_init hN hH)

/-- A core line is in the queue at most once. -/
theorem queue_nodup {N : Nat} (ops : List Op) :
    ((ops.foldl (Queue.op N) []).map (·.1)).Nodup := by
  have key : ∀ (ops : List Op) (q : Queue), (q.map (·.1)).Nodup → ((ops.foldl (Queue.op N) q).map (·.1)).Nodup := by
    intro ops
    induction ops with
    | nil => intro q h; exact h
    | cons o ops ih =>
      intro q h
      refine ih _ ?_
      have hm : ∀ (f : Nat → Nat) (k : Key),
          (q.map fun x => if x.1 = k then (k, f x.2) else x).map (·.1) = q.map (·.1) := by
        intro f k
        rw [List.map_map]
        refine List.map_congr_left (fun x _ => ?_)
        by_cases e : x.1 = k <;> simp [e]
      cases o with
      | access k =>
        simp only [Queue.op, Queue.access]
        split
        · rw [hm (· + 1) k]; exact h
        · rename_i hk
          rw [List.map_append, List.nodup_append]
          have hs : (if q.length < N then q else q.tail).Sublist q := by
            split
            · exact List.Sublist.refl _
            · exact List.tail_sublist _
          refine ⟨h.sublist (hs.map _), by simp, ?_⟩
          intro a ha b hb
          simp at hb
          rintro rfl
          subst hb
          exact hk ((hs.map _).subset ha)
      | purge k => exact (hm (fun _ => 0) k).symm ▸ h
  exact key ops [] (by simp)

theorem count_iff {q : Queue} (hq : (q.map (·.1)).Nodup) (k : Key) (n : Nat) :
    q.count k = some n ↔ (k, n) ∈ q := by
  unfold Queue.count
  induction q with
  | nil => simp
  | cons x q ih =>
    simp only [List.map_cons, List.nodup_cons] at hq
    have ih := ih hq.2
    rw [List.find?_cons]
    by_cases e : x.1 = k
    · simp only [e, decide_true]
      constructor
      · intro h; simp at h; subst h; subst e; simp
      · intro h
        rcases List.mem_cons.1 h with h | h
        · simp [← h]
        · exact absurd (List.mem_map.2 ⟨_, h, rfl⟩) (e ▸ hq.1)
    · simp only [e, decide_false]
      rw [ih]
      constructor
      · exact List.mem_cons_of_mem _
      · intro h
        rcases List.mem_cons.1 h with h | h
        · exact absurd (congrArg Prod.fst h).symm e
        · exact h

/-- C26. A core line is admitted exactly if it is tracked and the number of its accesses since it has been tracked
(or purged), this one included, is at least the threshold. (As a number of 32 bits.) -/
theorem admits_exactly {N H thr : Nat} (hN : 0 < N) (hH : 0 < H) (ops : List Op) (k : Key) :
    (access (ops.foldl (runOp thr) (init N H)) thr k).2 = true ↔
      ∃ n, (ops.foldl (Queue.op N) []).count k = some n ∧ thr ≤ (n + 1) % 2 ^ 32 := by
  have s := tracks_exactly (thr := thr) hN hH ops
  have hq := queue_nodup (N := N) ops
  generalize ops.foldl (runOp thr) (init N H) = t at s
  generalize ops.foldl (Queue.op N) [] = q at s hq
  obtain ⟨b, r⟩ := s.rep
  cases hf : find t k with
  | none =>
    have hn := r.find_none hf
    have : (access t thr k).2 = false := by simp [access, query, hf]
    rw [this]
    simp only [Bool.false_eq_true, false_iff, not_exists, not_and]
    intro n h
    rw [count_iff hq] at h
    obtain ⟨c, h1, h2⟩ := (s.tracked k).1 (List.mem_map.2 ⟨_, h, rfl⟩)
    exact absurd h2 (hn c h1)
  | some c =>
    obtain ⟨hc, hk⟩ := r.find_some hf
    have : (access t thr k).2 = decide (thr ≤ (t.cnt c + 1) % 2 ^ 32) := by simp [access, query, hf]
    rw [this, decide_eq_true_eq]
    constructor
    · intro h
      obtain ⟨x, hx, e⟩ := List.mem_map.1 ((s.tracked k).2 ⟨c, hc, hk⟩)
      refine ⟨x.2, (count_iff hq _ _).2 (by rw [← e]; exact hx), ?_⟩
      rw [sim_cnt s hc hk x hx e] at h
      rwa [Nat.mod_add_mod] at h
    · rintro ⟨n, h, hle⟩
      rw [count_iff hq] at h
      rw [sim_cnt s hc hk _ h rfl, Nat.mod_add_mod]
      exact hle

/-- The number of accesses to a core line in a history. -/
def accesses (ops : List Op) (k : Key) : Nat := ops.countP fun o => o = .access k

/-- What the queue counts are accesses of the history. -/
theorem count_le {N : Nat} (ops : List Op) (k : Key) (n : Nat) (h : (k, n) ∈ ops.foldl (Queue.op N) []) :
    n ≤ accesses ops k := by
  have key : ∀ (ops : List Op) (q : Queue) (m : Key → Nat), (∀ k n, (k, n) ∈ q → n ≤ m k) →
      ∀ k n, (k, n) ∈ ops.foldl (Queue.op N) q → n ≤ m k + accesses ops k := by
    intro ops
    induction ops with
    | nil => intro q m h k n hm; simpa [accesses] using h k n hm
    | cons o ops ih =>
      intro q m h k n hm
      have := ih (Queue.op N q o) (fun k => m k + if o = .access k then 1 else 0) ?_ k n hm
      · have e : accesses (o :: ops) k = accesses ops k + if o = .access k then 1 else 0 := by
          simp [accesses, List.countP_cons]
        omega
      intro k n hk
      cases o with
      | access k0 =>
        simp only [Queue.op, Queue.access] at hk
        split at hk
        · obtain ⟨x, hx, e⟩ := List.mem_map.1 hk
          have := h x.1 x.2 hx
          split at e
          · rename_i e'
            cases e
            rw [← e']; simp; omega
          · subst e
            simp only at this
            omega
        · rcases List.mem_append.1 hk with hk | hk
          · have : (k, n) ∈ q := by
              split at hk
              · exact hk
              · exact List.mem_of_mem_tail hk
            have := h k n this
            omega
          · simp at hk
            obtain ⟨rfl, rfl⟩ := hk
            simp
      | purge k0 =>
        simp only [Queue.op, Queue.purge] at hk
        obtain ⟨x, hx, e⟩ := List.mem_map.1 hk
        have := h x.1 x.2 hx
        split at e
        · cases e; omega
        · subst e; simp only at this; omega
  simpa using key ops [] (fun _ => 0) (by simp) k n h

/-- C26. A core line is admitted only after as many accesses as the threshold says, this one included. -/
theorem admitted_only_after {N H thr : Nat} (hN : 0 < N) (hH : 0 < H) (ops : List Op) (k : Key)
    (h : (access (ops.foldl (runOp thr) (init N H)) thr k).2 = true) :
    thr ≤ accesses (ops ++ [.access k]) k := by
  obtain ⟨n, h1, h2⟩ := (admits_exactly hN hH ops k).1 h
  rw [count_iff (queue_nodup ops)] at h1
  have := count_le ops k n h1
  have e : accesses (ops ++ [.access k]) k = accesses ops k + 1 := by simp [accesses]
  have := Nat.mod_le (n + 1) (2 ^ 32)
  omega

/-- The lookup ends, whatever the history. -/
theorem lookup_ends {N H thr : Nat} (hN : 0 < N) (hH : 0 < H) (ops : List Op) (k : Key) (n : Nat)
    (hn : (ops.foldl (runOp thr) (init N H)).N < n) :
    lookup (ops.foldl (runOp thr) (init N H)) k n ≠ none := by
  obtain ⟨b, r⟩ := (tracks_exactly (thr := thr) hN hH ops).rep
  rw [r.lookup_ends k n hn]
  simp

/-! ### Requests -/

/-- C26. The decision about a request: below the trigger it is admitted and nothing is tracked; otherwise every one
of its core lines is accessed, and it is admitted exactly if each of them is admitted or any is cached already. -/
theorem request_decision (t : Table) (thr trigger lines occupied mapped : Nat) (ks : List Key) :
    (100 * occupied < trigger * lines → shouldPromote t thr trigger lines occupied mapped ks = (t, true)) ∧
    (trigger * lines ≤ 100 * occupied →
      (shouldPromote t thr trigger lines occupied mapped ks).1 =
        (ks.map Op.access).foldl (runOp thr) t ∧
      ((shouldPromote t thr trigger lines occupied mapped ks).2 = true ↔
        0 < mapped ∨ ∀ i k, ks[i]? = some k →
          (access (((ks.take i).map Op.access).foldl (runOp thr) t) thr k).2 = true)) := by
  unfold shouldPromote
  generalize trigger * lines = x
  refine ⟨fun h => by rw [if_pos (by omega)], fun h => ?_⟩
  rw [if_neg (by omega)]
  have key : ∀ (ks : List Key) (t : Table), (accessAll t thr ks).1 = (ks.map Op.access).foldl (runOp thr) t ∧
      ((accessAll t thr ks).2 = true ↔ ∀ i k, ks[i]? = some k →
        (access (((ks.take i).map Op.access).foldl (runOp thr) t) thr k).2 = true) := by
    intro ks
    induction ks with
    | nil => intro t; simp [accessAll]
    | cons k ks ih =>
      intro t
      have := ih (access t thr k).1
      refine ⟨this.1, ?_⟩
      simp only [accessAll, Bool.and_eq_true]
      rw [this.2]
      constructor
      · rintro ⟨h1, h2⟩ i k' hi
        cases i with
        | zero => simp at hi; subst hi; exact h1
        | succ i => exact h2 i k' (by simpa using hi)
      · intro h
        exact ⟨h 0 k rfl, fun i k' hi => h (i + 1) k' (by simpa using hi)⟩
  refine ⟨(key ks t).1, ?_⟩
  simp only [Bool.or_eq_true, decide_eq_true_eq]
  rw [(key ks t).2]
  constructor
  · rintro (h | h)
    · exact .inr h
    · exact .inl (by omega)
  · rintro (h | h)
    · exact .inr (by omega)
    · exact .inl h

/-- There are buckets, as assumed above, for a ring of at least four entries (two cache lines). -/
theorem buckets_pos (size : Nat) (h : 4 ≤ size) : 0 < buckets size := by
  unfold buckets; omega

/-! ### Any number of threads -/

/-- What holds at any time. -/
structure CInv (N H thr : Nat) (s : St) : Prop where
  size : s.t.N = N ∧ s.t.H = H
  rep : ∃ b, Rep s.t b
  nodup : (s.held.map (·.1) ++ s.done).Nodup
  busy : ∀ c, c < N → (s.t.valid c = false ↔ c ∈ s.held.map (·.1) ++ s.done)
  lt : ∀ c, c ∈ s.held.map (·.1) ++ s.done → c < N
  old : ∀ x, x ∈ s.held → x.2.2 = s.t.key x.1
  pend : ∀ k, k ∈ s.pend → 1 ≤ s.reqs k
  held : ∀ x, x ∈ s.held → 1 ≤ s.reqs x.2.1
  cnt : ∀ c k, c < N → s.t.key c = some k → s.t.cnt c ≤ s.reqs k
  adm : ∀ x, x ∈ s.admitted → thr ≤ x.2

theorem query_cnt {t : Table} {b : Nat → List Nat} (r : Rep t b) {k : Key} {n : Nat} (h : (query t k).2 = some n) :
    ∃ c, c < t.N ∧ t.key c = some k ∧ n = (t.cnt c + 1) % 2 ^ 32 ∧
      ∀ x, (query t k).1.cnt x = if x = c then n else t.cnt x := by
  unfold query at h ⊢
  cases hf : find t k with
  | none => rw [hf] at h; cases h
  | some c =>
    obtain ⟨h1, h2⟩ := r.find_some hf
    rw [hf] at h
    simp only [Option.some.injEq] at h
    exact ⟨c, h1, h2, h.symm, fun x => by rw [← h]; rfl⟩

theorem setOcc_cnt (t : Table) (k : Key) (x : Nat) : (setOcc t k 0).cnt x ≤ t.cnt x := by
  unfold setOcc
  cases find t k with
  | none => exact Nat.le_refl _
  | some c => simp only [upd]; split <;> omega

theorem cinv_step {N H thr : Nat} {s u : St} (h : CInv N H thr s) (st : Step thr s u) : CInv N H thr u := by
  obtain ⟨b, r⟩ := h.rep
  obtain ⟨hN, hH⟩ := h.size
  cases st with
  | hit k n hn =>
    obtain ⟨c, hc, hk, e, hx⟩ := query_cnt r hn
    obtain ⟨s1, s2, _, s4, _, _, _, s8⟩ := query_same s.t k
    have hcnt := h.cnt c k (hN ▸ hc) hk
    have hle := Nat.mod_le (s.t.cnt c + 1) (2 ^ 32)
    refine ⟨⟨s1.trans hN, s2.trans hH⟩, ⟨b, rep_query r k⟩, h.nodup, ?_, h.lt, ?_, ?_, ?_, ?_, ?_⟩
    · dsimp only; rw [s8]; exact h.busy
    · dsimp only; rw [s4]; exact h.old
    · intro k' hk'; have := h.pend k' hk'; dsimp only; split <;> omega
    · intro x hx; have := h.held x hx; dsimp only; split <;> omega
    · intro d k' hd hk'
      dsimp only at hk' ⊢
      rw [s4] at hk'
      rw [hx]
      have := h.cnt d k' hd hk'
      by_cases e' : d = c
      · subst e'
        rw [hk] at hk'; cases hk'
        rw [if_pos rfl, if_pos rfl]
        omega
      · rw [if_neg e']
        split <;> omega
    · intro x hx
      dsimp only at hx
      split at hx
      · rcases List.mem_cons.1 hx with rfl | hx
        · show thr ≤ s.reqs k + 1
          omega
        · exact h.adm x hx
      · exact h.adm x hx
  | miss k hn =>
    refine ⟨h.size, ⟨b, r⟩, h.nodup, h.busy, h.lt, h.old, ?_, ?_, ?_, h.adm⟩
    · intro k' hk'
      dsimp only at hk' ⊢
      rcases List.mem_cons.1 hk' with rfl | hk'
      · rw [if_pos rfl]; omega
      · have := h.pend k' hk'; split <;> omega
    · intro x hx; have := h.held x hx; dsimp only; split <;> omega
    · intro d k' hd hk'; have := h.cnt d k' hd hk'; dsimp only; split <;> omega
  | take k hk =>
    have hp := r.ptr
    have e1 : (getSlot s.t).2.1 = s.t.ptr := rfl
    have e2 : (getSlot s.t).2.2 = s.t.valid s.t.ptr := rfl
    have hv : ∀ x, (getSlot s.t).1.valid x = if x = s.t.ptr then false else s.t.valid x := fun _ => rfl
    have hb := h.busy s.t.ptr (hN ▸ hp)
    refine ⟨h.size, ⟨b, rep_getSlot r⟩, ?_, ?_, ?_, ?_, ?_, ?_, h.cnt, h.adm⟩
    · dsimp only
      split
      · rename_i hv'
        rw [e2] at hv'
        rw [List.map_cons, List.cons_append, List.nodup_cons]
        exact ⟨fun hm => (by rw [e1, ← hb, hv'] at hm; cases hm), h.nodup⟩
      · exact h.nodup
    · intro c hc
      dsimp only
      have := h.busy c hc
      rw [hv]
      split <;> rename_i e
      · subst e
        split <;> rename_i hv'
        · simp [e1]
        · rw [e2] at hv'
          rw [← hb]; simp at hv'; simp [hv']
      · rw [this]
        split
        · simp [e1, e]
        · rfl
    · intro c hc
      dsimp only at hc
      split at hc
      · rw [List.map_cons, List.cons_append] at hc
        rcases List.mem_cons.1 hc with rfl | hc
        · exact hN ▸ hp
        · exact h.lt c hc
      · exact h.lt c hc
    · intro x hx
      dsimp only at hx ⊢
      split at hx
      · rcases List.mem_cons.1 hx with rfl | hx
        · rfl
        · exact h.old x hx
      · exact h.old x hx
    · intro k' hk'
      exact h.pend k' (List.mem_of_mem_erase hk')
    · intro x hx
      dsimp only at hx
      split at hx
      · rcases List.mem_cons.1 hx with rfl | hx
        · exact h.pend k hk
        · exact h.held x hx
      · exact h.held x hx
  | replace x hx =>
    have hxl : x.1 < N := h.lt _ (List.mem_append_left _ (List.mem_map.2 ⟨x, hx, rfl⟩))
    obtain ⟨b', r'⟩ := rep_replace r (c := x.1) x.2.1 (hN ▸ hxl)
    obtain ⟨s1, s2, s3, _⟩ := replace_same s.t x.1 x.2.1
    have hperm : (s.held.map (·.1) ++ s.done).Perm ((s.held.erase x).map (·.1) ++ x.1 :: s.done) := by
      have h1 := (List.perm_cons_erase hx).map (fun y : Nat × Key × Option Key => y.1)
      refine (h1.append_right s.done).trans ?_
      exact List.perm_middle.symm
    have hnd := h.nodup
    have hne : ∀ y, y ∈ s.held.erase x → y.1 ≠ x.1 := by
      intro y hy e
      have := hperm.nodup_iff.1 hnd
      rw [List.nodup_append] at this
      exact this.2.2 y.1 (List.mem_map.2 ⟨y, hy, rfl⟩) x.1 (by simp) e
    refine ⟨⟨s1.trans hN, s2.trans hH⟩, ⟨b', r'⟩, hperm.nodup_iff.1 hnd, ?_, ?_, ?_, h.pend, ?_, ?_, h.adm⟩
    · intro c hc
      dsimp only
      rw [s3, h.busy c hc, hperm.mem_iff]
    · intro c hc
      exact h.lt c (hperm.mem_iff.2 hc)
    · intro y hy
      dsimp only at hy ⊢
      rw [replace_key, if_neg (hne y hy)]
      exact h.old y (List.mem_of_mem_erase hy)
    · intro y hy
      exact h.held y (List.mem_of_mem_erase hy)
    · intro c k hc hk
      dsimp only at hk ⊢
      rw [replace_key] at hk
      rw [replace_cnt]
      split at hk
      · rename_i e
        cases hk
        rw [if_pos e]
        exact h.held x hx
      · rename_i e
        rw [if_neg e]
        exact h.cnt c k hc hk
  | commit c hc =>
    have hperm : (s.held.map (·.1) ++ s.done).Perm (c :: (s.held.map (·.1) ++ s.done.erase c)) := by
      have h1 := List.perm_cons_erase hc
      refine (h1.append_left _).trans ?_
      exact List.perm_middle
    have hnd := hperm.nodup_iff.1 h.nodup
    rw [List.nodup_cons] at hnd
    refine ⟨h.size, ⟨b, rep_commit r c⟩, hnd.2, ?_, ?_, h.old, h.pend, h.held, h.cnt, h.adm⟩
    · intro d hd
      show upd s.t.valid c true d = false ↔ _
      have := h.busy d hd
      rw [hperm.mem_iff, List.mem_cons] at this
      unfold upd
      split
      · rename_i e
        subst e
        simp only [Bool.true_eq_false, false_iff]
        exact hnd.1
      · rename_i e
        rw [this]; simp [e]
    · intro d hd
      exact h.lt d (hperm.mem_iff.2 (List.mem_cons_of_mem _ hd))
  | purge k =>
    obtain ⟨s1, s2, _, s4, _, _, _, s8⟩ := setOcc_same s.t k 0
    refine ⟨⟨s1.trans hN, s2.trans hH⟩, ⟨b, rep_setOcc r k 0⟩, h.nodup, ?_, h.lt, ?_, h.pend, h.held, ?_, h.adm⟩
    · dsimp only; rw [s8]; exact h.busy
    · dsimp only; rw [s4]; exact h.old
    · intro c k' hc hk'
      dsimp only at hk' ⊢
      rw [s4] at hk'
      exact Nat.le_trans (setOcc_cnt s.t k c) (h.cnt c k' hc hk')

theorem cinv {N H thr : Nat} (hN : 0 < N) (hH : 0 < H) {s : St}
    (h : Reach (fun s => s = start N H) (Step thr) s) : CInv N H thr s := by
  refine Reach.inv (P := CInv N H thr) ?_ (fun _ _ h st => cinv_step h st) s h
  rintro s rfl
  exact ⟨⟨rfl, rfl⟩, ⟨_, rep_init hN hH⟩, by simp [start], fun c _ => by simp [start, init], by simp [start],
    by simp [start], by simp [start], by simp [start], by simp [start, init], by simp [start]⟩

/-- C26, any number of threads. A core line is admitted only after as many requests for it as the threshold says. -/
theorem admitted_only_after_threads {N H thr : Nat} (hN : 0 < N) (hH : 0 < H) {s : St}
    (h : Reach (fun s => s = start N H) (Step thr) s) (k : Key) (n : Nat) (ha : (k, n) ∈ s.admitted) : thr ≤ n :=
  (cinv hN hH h).adm _ ha

/-- C26, any number of threads. The lookup ends and finds a slot of the core line exactly if there is one: what is
tracked is never lost. -/
theorem found_iff_tracked {N H thr : Nat} (hN : 0 < N) (hH : 0 < H) {s : St}
    (h : Reach (fun s => s = start N H) (Step thr) s) (k : Key) :
    ∃ r, lookup s.t k (N + 1) = some r ∧ (r = none ↔ ∀ c, c < N → s.t.key c ≠ some k) ∧
      ∀ c, r = some c → c < N ∧ s.t.key c = some k := by
  have hi := cinv hN hH h
  obtain ⟨b, r⟩ := hi.rep
  obtain ⟨e, _⟩ := hi.size
  refine ⟨find s.t k, r.lookup_ends k _ (by omega), ⟨fun h => e ▸ r.find_none h, fun h => ?_⟩, fun c hc => e ▸ r.find_some hc⟩
  cases hf : find s.t k with
  | none => rfl
  | some c => exact absurd (r.find_some hf).2 (h c (e ▸ (r.find_some hf).1))

/-- Any number of threads. No slot is in use by two threads, and what a thread read from its slot is still there
when it has got the locks. -/
theorem slots_apart {N H thr : Nat} (hN : 0 < N) (hH : 0 < H) {s : St}
    (h : Reach (fun s => s = start N H) (Step thr) s) :
    (s.held.map (·.1) ++ s.done).Nodup ∧ ∀ x, x ∈ s.held → x.1 < N ∧ x.2.2 = s.t.key x.1 :=
  ⟨(cinv hN hH h).nodup, fun x hx => ⟨(cinv hN hH h).lt _ (List.mem_append_left _ (List.mem_map.2 ⟨x, hx, rfl⟩)),
    (cinv hN hH h).old x hx⟩⟩

/-- Bucket locks are taken in increasing order, so that threads cannot wait for each other in a circle; exactly the
buckets of both core lines are locked, and the same are unlocked. -/
theorem locks_ordered (H : Nat) (hH : 0 < H) (k : Key) (old : Option Key) :
    (lockOrder H k old).Pairwise (· < ·) ∧
    (∀ h, h ∈ lockOrder H k old ↔ h = hashOf H k ∨ ∃ k', old = some k' ∧ h = hashOf H k') ∧
    (unlockOrder H k old).Nodup ∧ ∀ h, h ∈ unlockOrder H k old ↔ h ∈ lockOrder H k old := by
  have h1 := hash_lt (H := H) k hH
  cases old with
  | none =>
    simp only [lockOrder, unlockOrder]
    generalize hashOf H k = a at h1
    rw [Nat.min_eq_left (by omega), Nat.max_eq_right (by omega)]
    simp [show a ≠ H by omega]
  | some k' =>
    have h2 := hash_lt (H := H) k' hH
    simp only [lockOrder, unlockOrder]
    generalize hashOf H k = a at h1
    generalize hb : hashOf H k' = c at h2
    rcases Nat.lt_trichotomy a c with h | h | h
    · rw [Nat.min_eq_left (by omega), Nat.max_eq_right (by omega)]
      simp [show a ≠ H by omega, show c ≠ H by omega, show a ≠ c by omega, hb, h]
    · subst h
      simp [show a ≠ H by omega, hb]
    · rw [Nat.min_eq_right (by omega), Nat.max_eq_left (by omega)]
      simp [show a ≠ H by omega, show c ≠ H by omega, show a ≠ c by omega, show c ≠ a by omega, hb, h]
      exact ⟨fun _ => or_comm, fun _ => or_comm⟩

/-- With two threads, a core line may be tracked twice: both look it up before either inserts it. -/
theorem tracked_twice : ∃ s : St, Reach (fun s => s = start 4 3) (Step 3) s ∧ s.pend = [] ∧ s.held = [] ∧
    s.done = [] ∧ s.t.key 0 = some (1, 5) ∧ s.t.key 1 = some (1, 5) ∧ s.reqs (1, 5) = 2 ∧
    s.t.cnt 0 = 1 ∧ s.t.cnt 1 = 1 := by
  have h0 : Reach (fun s => s = start 4 3) (Step 3) (start 4 3) := .init rfl
  have h1 := Reach.step h0 (.miss _ (1, 5) (by decide))
  have h2 := Reach.step h1 (.miss _ (1, 5) (by decide))
  have h3 := Reach.step h2 (.take _ (1, 5) (by decide))
  have h4 := Reach.step h3 (.take _ (1, 5) (by decide))
  have h5 := Reach.step h4 (.replace _ (0, (1, 5), none) (by decide))
  have h6 := Reach.step h5 (.replace _ (1, (1, 5), none) (by decide))
  have h7 := Reach.step h6 (.commit _ 0 (by decide))
  have h8 := Reach.step h7 (.commit _ 1 (by decide))
  exact ⟨_, h8, by decide, by decide, by decide, by decide, by decide, by decide, by decide, by decide⟩

/-! ### Examples -/

/-- Three slots, three buckets, a ring that has wrapped around: the first core line is dropped when the fourth
comes. -/
example : [Op.access (0, 1), .access (0, 2), .access (0, 1), .access (0, 3), .access (0, 4), .purge (0, 2)].foldl
    (Queue.op 3) [] = [((0, 2), 0), ((0, 3), 1), ((0, 4), 1)] := by decide

/-- With threshold 3 the third access is admitted, and not the second. -/
example : (access ([Op.access (0, 1), .access (0, 4)].foldl (runOp 3) (init 3 3)) 3 (0, 1)).2 = false ∧
    (access ([Op.access (0, 1), .access (0, 4), .access (0, 1)].foldl (runOp 3) (init 3 3)) 3 (0, 1)).2 = true := by
  decide

example : (3 : Nat) ≤ accesses ([Op.access (0, 1), .access (0, 4), .access (0, 1)] ++ [.access (0, 1)]) (0, 1) :=
  admitted_only_after (N := 3) (H := 3) (by decide) (by decide) _ _ (by decide)

/-- A cache of 100 lines, 80 in use: the filter works, and a request partly cached is let in. -/
example : (shouldPromote (init 3 3) 3 80 100 80 0 [(0, 1), (0, 2)]).2 = false ∧
    (shouldPromote (init 3 3) 3 80 100 80 1 [(0, 1), (0, 2)]).2 = true ∧
    (shouldPromote (init 3 3) 3 80 100 79 0 [(0, 1), (0, 2)]).2 = true := by decide

example : buckets 8196 = 4098 := by decide

end Verif.Nhit
