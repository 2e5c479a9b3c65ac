import Verif.Lemma.MetaRaw

/-!
C50: the containers of metadata.

Specification: entry `e` of a container is `entrySize` bytes at the address `access` gives.
-/

namespace Verif.MetaRaw

/-- Specification: byte `o` of entry `e`. -/
def entry (r : Raw) (mem : Nat → Nat) (e o : Nat) : Nat := mem (r.entrySize * e + o)

/-- the copies that may be named, `ENV_BUG_ON` of `_raw_ram_load_all`. -/
def Raw.CopyOk (r : Raw) (idx : Nat) : Prop := if r.flapping then idx ≤ 1 else idx = 0

/-- C50: an entry lies in the memory of the container, and two entries have no byte in common. -/
theorem entry_in_pool {r : Raw} (h : r.Ok) {e a : Nat} (ha : r.access e = some a) :
    a + r.entrySize ≤ r.pages * pageSize ∧
      ∀ e' a', r.access e' = some a' → e ≠ e' → a + r.entrySize ≤ a' ∨ a' + r.entrySize ≤ a := by
  unfold Raw.access at ha
  split at ha
  · rename_i he
    cases ha
    constructor
    · have h1 := off_lt h e (o := r.entrySize - 1) (by have := h.pos; omega)
      have h2 := addr_split (r := r) e
      have h3 := page_lt h he
      have h4 : r.used * (e / r.inPage + 1) ≤ r.used * r.pages := Nat.mul_le_mul_left _ h3
      have h5 : r.used * r.pages ≤ pageSize * r.pages := Nat.mul_le_mul_right _ (used_le r)
      rw [Nat.mul_add, Nat.mul_one] at h4
      rw [Nat.mul_comm]
      have := h.pos
      omega
    · intro e' a' ha' hne
      unfold Raw.access at ha'
      split at ha'
      · cases ha'
        unfold Raw.addr
        rcases Nat.lt_or_gt_of_ne hne with hlt | hgt
        · left
          have := Nat.mul_le_mul_left r.entrySize (show e + 1 ≤ e' from hlt)
          rwa [Nat.mul_add, Nat.mul_one] at this
        · right
          have := Nat.mul_le_mul_left r.entrySize (show e' + 1 ≤ e from hgt)
          rwa [Nat.mul_add, Nat.mul_one] at this
      · cases ha'
  · cases ha

/-- C50: a write of pages puts every entry of these pages on the device, in the page that
`_raw_ram_page` names, and leaves the other pages. -/
theorem entry_written {r : Raw} (h : r.Ok) (mem : Nat → Nat) (idx : Nat) (ps : List Nat) (d : Dev)
    {e o : Nat} (he : e < r.entries) (ho : o < r.entrySize) (hp : r.page e ∈ ps) :
    r.entrySize * (e % r.inPage) + o < pageSize ∧
    flushPages r mem idx ps d (r.base idx + r.page e) (r.entrySize * (e % r.inPage) + o) =
      entry r mem e o := by
  have h1 := off_lt h e ho
  refine ⟨Nat.lt_of_lt_of_le h1 (used_le r), ?_⟩
  unfold flushPages
  rw [fold_set, if_pos hp]
  unfold fill
  rw [if_pos h1, show r.page e = e / r.inPage from rfl, start_eq h (page_lt h he)]
  unfold entry
  congr 1
  have := addr_split (r := r) e
  unfold Raw.addr at this
  omega

theorem written_only {r : Raw} (mem : Nat → Nat) (idx : Nat) (ps : List Nat) (d : Dev) {x : Nat}
    (hx : ∀ k ∈ ps, x ≠ r.base idx + k) : flushPages r mem idx ps d x = d x :=
  fold_set_ne _ _ _ _ hx

/-- C50: a container is restored by a load of the copy it was flushed to. -/
theorem roundtrip {r : Raw} (h : r.Ok) (mem mem' : Nat → Nat) (idx : Nat) (d : Dev) {e o : Nat}
    (he : e < r.entries) (ho : o < r.entrySize) :
    entry r (loadAll r (flushAll r mem idx d) idx mem') e o = entry r mem e o := by
  have h1 := off_lt h e ho
  have hs := addr_split (r := r) e
  have hu := h.used_pos
  have hl := page_lt h he
  unfold Raw.addr at hs
  have hdiv : (r.entrySize * e + o) / r.used = e / r.inPage := by
    rw [hs, Nat.add_assoc, Nat.mul_add_div hu, Nat.div_eq_of_lt h1, Nat.add_zero]
  have hmod : (r.entrySize * e + o) % r.used = r.entrySize * (e % r.inPage) + o := by
    rw [hs, Nat.add_assoc, Nat.mul_add_mod, Nat.mod_eq_of_lt h1]
  unfold loadAll
  unfold entry
  rw [load_get h (fun k => flushAll r mem idx d (r.base idx + k)) mem' r.pages (Nat.le_refl _), hdiv, hmod,
    if_pos hl]
  exact (entry_written h mem idx _ d he ho (by simpa [Raw.page] using hl)).2

/-- C50: after flushes of some pages only (changed entries), a load gives the entries of these pages as
they are in memory and all others as they were on the device. -/
theorem partial_flush {r : Raw} (h : r.Ok) (mem mem' : Nat → Nat) (idx : Nat) (ps : List Nat) (d : Dev)
    {e o : Nat} (he : e < r.entries) (ho : o < r.entrySize) :
    entry r (loadAll r (flushPages r mem idx ps d) idx mem') e o =
      if r.page e ∈ ps then entry r mem e o else entry r (loadAll r d idx mem') e o := by
  have h1 := off_lt h e ho
  have hs := addr_split (r := r) e
  have hu := h.used_pos
  have hl := page_lt h he
  unfold Raw.addr at hs
  have hdiv : (r.entrySize * e + o) / r.used = e / r.inPage := by
    rw [hs, Nat.add_assoc, Nat.mul_add_div hu, Nat.div_eq_of_lt h1, Nat.add_zero]
  have hmod : (r.entrySize * e + o) % r.used = r.entrySize * (e % r.inPage) + o := by
    rw [hs, Nat.add_assoc, Nat.mul_add_mod, Nat.mod_eq_of_lt h1]
  have key : ∀ d' : Dev, entry r (loadAll r d' idx mem') e o =
      d' (r.base idx + r.page e) (r.entrySize * (e % r.inPage) + o) := by
    intro d'
    unfold loadAll entry
    rw [load_get h (fun k => d' (r.base idx + k)) mem' r.pages (Nat.le_refl _), hdiv, hmod, if_pos hl]
    rfl
  rw [key, key]
  by_cases hp : r.page e ∈ ps
  · rw [if_pos hp]
    exact (entry_written h mem idx ps d he ho hp).2
  · rw [if_neg hp]
    unfold flushPages
    rw [fold_set, if_neg hp]

/-- C50: copying one page of the device into the container (passive update) replaces the entries of this page
and no other byte of the container. -/
theorem drain_entry {r : Raw} (h : r.Ok) (mem : Nat → Nat) {k : Nat} (hk : k < r.pages) (p : Page)
    {e o : Nat} (ho : o < r.entrySize) :
    entry r (drain r mem k p) e o =
      if r.page e = k then p (r.entrySize * (e % r.inPage) + o) else entry r mem e o := by
  have h1 := off_lt h e ho
  have hs := addr_split (r := r) e
  have hu := h.used_pos
  unfold Raw.addr at hs
  have hdiv : (r.entrySize * e + o) / r.used = e / r.inPage := by
    rw [hs, Nat.add_assoc, Nat.mul_add_div hu, Nat.div_eq_of_lt h1, Nat.add_zero]
  have hmod : (r.entrySize * e + o) % r.used = r.entrySize * (e % r.inPage) + o := by
    rw [hs, Nat.add_assoc, Nat.mul_add_mod, Nat.mod_eq_of_lt h1]
  unfold entry
  rw [drain_get h hk, hdiv, hmod]
  rfl

/-- C50: a flush writes only inside the place of the container on the device, and the two copies have
no page in common. -/
theorem copy_place {r : Raw} {idx k : Nat} (hi : r.CopyOk idx) (hk : k < r.pages) :
    r.offset ≤ r.base idx + k ∧ r.base idx + k < r.offset + r.sizeOnSsd ∧
      ∀ idx' k', r.CopyOk idx' → k' < r.pages → idx ≠ idx' → r.base idx + k ≠ r.base idx' + k' := by
  have hseg : r.pages ≤ r.segSize := by unfold Raw.segSize; omega
  unfold Raw.CopyOk at hi
  unfold Raw.base Raw.sizeOnSsd
  cases hf : r.flapping
  · rw [hf] at hi
    simp only [Bool.false_eq_true, if_false] at hi ⊢
    subst hi
    refine ⟨by omega, by omega, ?_⟩
    intro idx' k' h1 _ h2
    unfold Raw.CopyOk at h1
    rw [hf] at h1
    simp only [Bool.false_eq_true, if_false] at h1
    omega
  · rw [hf] at hi
    simp only [if_true] at hi ⊢
    have : idx = 0 ∨ idx = 1 := by omega
    refine ⟨by omega, by rcases this with rfl | rfl <;> omega, ?_⟩
    intro idx' k' h1 h3 h2
    unfold Raw.CopyOk at h1
    rw [hf] at h1
    simp only [if_true] at h1
    have h4 : idx' = 0 ∨ idx' = 1 := by omega
    rcases h4 with rfl | rfl <;> rcases this with rfl | rfl <;> omega

/-- C50: zeroing a container zeroes all of its place on the device, both copies, and nothing else. -/
theorem zeroed {r : Raw} (d : Dev) (x : Nat) :
    zeroAll r d x = if r.offset ≤ x ∧ x < r.offset + r.sizeOnSsd then (fun _ => 0) else d x := by
  unfold zeroAll
  by_cases hx : r.offset ≤ x ∧ x < r.offset + r.sizeOnSsd
  · rw [if_pos hx]
    have : x = r.offset + (x - r.offset) := by omega
    rw [this]
    rw [fold_set (fun _ => fun _ => 0), if_pos (by simp; omega)]
  · rw [if_neg hx]
    refine fold_set_ne (fun _ => fun _ => 0) _ _ _ (fun k hk => ?_)
    have := List.mem_range.1 hk
    omega

/-- C50: the checksum of a restored container is the one of the container flushed (bytes behind the
last page of entries are never written and zero). -/
theorem checksum_roundtrip {r : Raw} (h : r.Ok) (crc : Nat → List Nat → Nat) (mem mem' : Nat → Nat)
    (idx : Nat) (d : Dev) (hz : ∀ a, r.used * r.pages ≤ a → mem a = 0)
    (hz' : ∀ a, r.used * r.pages ≤ a → mem' a = 0) :
    checksum crc r (loadAll r (flushAll r mem idx d) idx mem') = checksum crc r mem := by
  have hu := h.used_pos
  have hall : ∀ a, loadAll r (flushAll r mem idx d) idx mem' a = mem a := by
    intro a
    unfold loadAll
    rw [load_get h (fun k => flushAll r mem idx d (r.base idx + k)) mem' r.pages (Nat.le_refl _)]
    by_cases hl : a / r.used < r.pages
    · rw [if_pos hl]
      unfold flushAll flushPages
      rw [fold_set, if_pos (by simpa using hl)]
      unfold fill
      rw [if_pos (Nat.mod_lt _ hu), start_eq h hl, Nat.div_add_mod]
    · rw [if_neg hl]
      have : r.used * r.pages ≤ a := by
        have h1 := Nat.mul_le_mul_left r.used (Nat.le_of_not_lt hl)
        have h2 := Nat.mul_div_le a r.used
        omega
      rw [hz a this, hz' a this]
  have : loadAll r (flushAll r mem idx d) idx mem' = mem := funext hall
  rw [this]

/-! ## Pages allocated on demand -/

/-- C50: an entry lies within one page of the table; asking for it changes no contents. -/
theorem dyn_get {r : Raw} (h : r.Ok) (s : Dyn) {e : Nat} (he : e < r.entries) (ok : Bool) :
    (∀ k, (s.get r e ok).1.fill k = s.fill k) ∧
    ∀ page off, (s.get r e ok).2 = some (page, off) →
      page < r.pages ∧ off + r.entrySize ≤ pageSize ∧ (s.get r e ok).1.pages page ≠ none ∧
        (page, off) = (e / r.inPage, e % r.inPage * r.entrySize) := by
  have h1 := off_lt h e (o := r.entrySize - 1) (by have := h.pos; omega)
  have h2 := used_le r
  have h3 := page_lt h he
  have h4 := h.pos
  have h5 : r.entrySize * (e % r.inPage) = e % r.inPage * r.entrySize := Nat.mul_comm _ _
  unfold Dyn.get
  simp only []
  cases hp : s.pages (e / r.inPage) with
  | some p =>
    simp only []
    refine ⟨fun _ => trivial, ?_⟩
    intro page off heq
    have heq := Option.some.inj heq
    cases heq
    exact ⟨h3, by omega, by simp [hp], rfl⟩
  | none =>
    cases ok with
    | false => simp
    | true =>
      simp only [if_true]
      refine ⟨fun k => ?_, ?_⟩
      · unfold Dyn.fill
        simp only [setSlot]
        by_cases e2 : k = e / r.inPage
        · rw [if_pos e2, e2, hp]; rfl
        · rw [if_neg e2]
      · intro page off heq
        have heq := Option.some.inj heq
        cases heq
        exact ⟨h3, by omega, by simp [setSlot], rfl⟩

/-- Specification: byte `o` of entry `e` of a table of pages. -/
def dynEntry (r : Raw) (s : Dyn) (e o : Nat) : Nat := s.fill (e / r.inPage) (e % r.inPage * r.entrySize + o)

/-- C50: what is stored through the pointer to an entry is in this entry, and in no other. -/
theorem dyn_stored {r : Raw} (h : r.Ok) (s : Dyn) {e page off : Nat} {ok : Bool}
    (hg : (s.get r e ok).2 = some (page, off)) {o : Nat} (ho : o < r.entrySize) (v : Nat) {e' o' : Nat}
    (ho' : o' < r.entrySize) (he : e < r.entries) :
    dynEntry r ((s.get r e ok).1.put page (off + o) v) e' o' =
      if e' = e ∧ o' = o then v else dynEntry r s e' o' := by
  obtain ⟨h1, h2⟩ := dyn_get h s he ok
  obtain ⟨_, _, h3, h4⟩ := h2 page off hg
  have h5 : page = e / r.inPage := congrArg Prod.fst h4
  have h6 : off = e % r.inPage * r.entrySize := congrArg Prod.snd h4
  have hp := h.inPage_pos
  generalize (s.get r e ok).1 = s' at h1 h3 ⊢
  cases hs : s'.pages page with
  | none => exact absurd hs h3
  | some p =>
    have hfill : ∀ k x, (s'.put page (off + o) v).fill k x =
        if k = page ∧ x = off + o then v else s.fill k x := by
      intro k x
      rw [← h1 k]
      unfold Dyn.put
      rw [hs]
      unfold Dyn.fill
      simp only [setSlot]
      by_cases e2 : k = page
      · rw [if_pos e2, e2, hs]
        simp
      · rw [if_neg e2, if_neg (fun hh => e2 hh.1)]
    unfold dynEntry
    rw [hfill]
    by_cases hc : e' = e ∧ o' = o
    · rw [if_pos hc, if_pos]
      rw [hc.1, hc.2, h5, h6]; exact ⟨rfl, rfl⟩
    · rw [if_neg hc, if_neg]
      rintro ⟨k1, k2⟩
      rw [h5] at k1
      rw [h6] at k2
      have k3 : e' % r.inPage = e % r.inPage := by
        rcases Nat.lt_trichotomy (e' % r.inPage) (e % r.inPage) with hh | hh | hh
        · have := Nat.mul_le_mul_right r.entrySize (Nat.succ_le_of_lt hh)
          rw [Nat.succ_mul] at this
          omega
        · exact hh
        · have := Nat.mul_le_mul_right r.entrySize (Nat.succ_le_of_lt hh)
          rw [Nat.succ_mul] at this
          omega
      rw [k3] at k2
      refine hc ⟨?_, by omega⟩
      rw [← Nat.div_add_mod e' r.inPage, ← Nat.div_add_mod e r.inPage, k1, k3]

/-- C50: a load with success restores the contents of every page; pages of zeros are not allocated. -/
theorem dyn_roundtrip {mem : Nat → Bool} {r : Raw} {idx : Nat} {s s0 : Dyn} {d : Dev}
    (hok : (s0.loadAll mem r (s.flushAll r idx d) idx).2 = true) {k : Nat} (hk : k < r.pages) :
    (∀ o, o < pageSize → (s0.loadAll mem r (s.flushAll r idx d) idx).1.fill k o = s.fill k o) ∧
    ((s0.loadAll mem r (s.flushAll r idx d) idx).1.pages k = none ↔ isZero (s.fill k) = true) := by
  have h1 := loadFrom_ok (by omega) hok k
  unfold Dyn.loadAll
  have h2 : s.flushAll r idx d (r.base idx + k) = s.fill k := by
    unfold Dyn.flushAll
    rw [fold_set, if_pos (by simpa using hk)]
  rw [if_pos ⟨Nat.zero_le _, hk⟩, h2] at h1
  unfold Dyn.fill at h1 ⊢
  rw [h1]
  by_cases hz : isZero ((s.pages k).getD fun _ => 0) = true
  · rw [if_pos hz]
    exact ⟨fun o ho => by simpa using (isZero_iff.1 hz o ho).symm, by simp [hz]⟩
  · rw [if_neg hz]
    exact ⟨fun o _ => rfl, by simp [hz]⟩

/-- C50: and it succeeds when there is memory. -/
theorem dyn_load_succeeds {mem : Nat → Bool} (hm : ∀ k, mem k = true) (r : Raw) (d : Dev) (idx : Nat)
    (s : Dyn) : (s.loadAll mem r d idx).2 = true :=
  loadFrom_succeeds hm (by omega) (by omega)

/-- value of the checksum over the first `n` pages. -/
def sumTo (crc : Nat → List Nat → Nat) (s : Dyn) (n : Nat) : Nat :=
  (List.range n).foldl (fun c i =>
    match s.pages i with
    | some p => crc c (bytes p)
    | none => c) 0

theorem sumTo_succ (crc : Nat → List Nat → Nat) (s : Dyn) (n : Nat) :
    sumTo crc s (n + 1) = match s.pages n with
      | some p => crc (sumTo crc s n) (bytes p)
      | none => sumTo crc s n := by
  unfold sumTo
  rw [List.range_succ, List.foldl_append]
  rfl

/-- C50, partial: the loaded UUIDs pass the checksum when no page of the table was allocated and zero.
Missing: a page is allocated by merely asking for an entry, see `zero_page_rejected`. -/
theorem dyn_accepted_partial {mem : Nat → Bool} {r : Raw} {idx : Nat} {s s0 : Dyn} {d : Dev}
    (crc : Nat → List Nat → Nat) (hz : ∀ k p, k < r.pages → s.pages k = some p → isZero p = false)
    (hok : (s0.loadAll mem r (s.flushAll r idx d) idx).2 = true) :
    Dyn.accepted crc r s (s0.loadAll mem r (s.flushAll r idx d) idx).1 = true := by
  have key : ∀ n, n ≤ r.pages → sumTo crc (s0.loadAll mem r (s.flushAll r idx d) idx).1 n = sumTo crc s n := by
    intro n
    induction n with
    | zero => intro _; rfl
    | succ n ih =>
      intro hn
      rw [sumTo_succ, sumTo_succ, ih (by omega)]
      obtain ⟨h1, h2⟩ := dyn_roundtrip hok (show n < r.pages by omega)
      cases hs : s.pages n with
      | none =>
        have : isZero (s.fill n) = true := by
          rw [isZero_iff]; intro o _; simp [Dyn.fill, hs]
        rw [h2.2 this]
      | some p =>
        have hnz := hz n p (by omega) hs
        cases hl : (s0.loadAll mem r (s.flushAll r idx d) idx).1.pages n with
        | none =>
          have := h2.1 hl
          rw [show s.fill n = p by unfold Dyn.fill; rw [hs]; rfl, hnz] at this
          cases this
        | some q =>
          simp only []
          have hb : bytes q = bytes p := by
            refine bytes_congr fun o ho => ?_
            have := h1 o ho
            unfold Dyn.fill at this
            rw [hs, hl] at this
            exact this
          rw [hb]
  have := key r.pages (Nat.le_refl _)
  simp only [Dyn.accepted, beq_iff_eq]
  exact this

/-- The defect: the table was fine, then an entry of a new page was asked for and nothing stored there
(adding a core with a UUID that is too long does this). The cache is stopped and cannot be loaded: the
checksum does not fit, whatever the memory and the device. Assumed of the checksum: it is injective in its
start value and zeros change the value reached. -/
theorem zero_page_rejected {mem : Nat → Bool} {r : Raw} {idx : Nat} {s s0 : Dyn} {d : Dev}
    (crc : Nat → List Nat → Nat) (hinj : ∀ bs c c', crc c bs = crc c' bs → c = c')
    (hz : ∀ k p, k < r.pages → s.pages k = some p → isZero p = false)
    {e : Nat} (he : e / r.inPage < r.pages) (hnew : s.pages (e / r.inPage) = none)
    (hcrc : crc (sumTo crc s (e / r.inPage)) (bytes (fun _ => 0)) ≠ sumTo crc s (e / r.inPage))
    (hok : (s0.loadAll mem r ((s.get r e true).1.flushAll r idx d) idx).2 = true) :
    Dyn.accepted crc r (s.get r e true).1
      (s0.loadAll mem r ((s.get r e true).1.flushAll r idx d) idx).1 = false := by
  have hget : (s.get r e true).1 =
      ⟨setSlot s.pages (e / r.inPage) (some (fun _ => 0)), s.count + 1⟩ := by
    simp [Dyn.get, hnew]
  -- what is flushed is what the old table would have flushed
  have hfill : ∀ k, (s.get r e true).1.fill k = s.fill k := by
    intro k
    rw [hget]
    unfold Dyn.fill
    simp only [setSlot]
    by_cases e2 : k = e / r.inPage
    · rw [if_pos e2, e2, hnew]; rfl
    · rw [if_neg e2]
  have hflush : (s.get r e true).1.flushAll r idx d = s.flushAll r idx d := by
    unfold Dyn.flushAll
    simp only [hfill]
  rw [hflush] at hok ⊢
  have hacc := dyn_accepted_partial crc hz hok
  simp only [Dyn.accepted, beq_iff_eq] at hacc
  have hne : ∀ n, n ≤ r.pages → (n ≤ e / r.inPage → sumTo crc (s.get r e true).1 n = sumTo crc s n) ∧
      (e / r.inPage < n → sumTo crc (s.get r e true).1 n ≠ sumTo crc s n) := by
    intro n
    induction n with
    | zero => intro _; exact ⟨fun _ => rfl, fun h => absurd h (Nat.not_lt_zero _)⟩
    | succ n ih =>
      intro hn
      obtain ⟨i1, i2⟩ := ih (by omega)
      have hpg : (s.get r e true).1.pages n = if n = e / r.inPage then some (fun _ => 0) else s.pages n := by
        rw [hget]; rfl
      rw [sumTo_succ, sumTo_succ, hpg]
      refine ⟨fun hle => ?_, fun hlt => ?_⟩
      · rw [if_neg (show ¬ n = e / r.inPage by omega), i1 (by omega)]
      · by_cases e2 : n = e / r.inPage
        · rw [if_pos e2, i1 (by omega)]
          subst e2
          rw [hnew]
          exact hcrc
        · rw [if_neg e2]
          have := i2 (by omega)
          cases hs : s.pages n with
          | none => exact this
          | some p => exact fun hh => this (hinj _ _ _ hh)
  have h1 := (hne r.pages (Nat.le_refl _)).2 he
  unfold Dyn.accepted
  rw [hacc]
  have h2 : Dyn.checksum crc r s ≠ Dyn.checksum crc r (s.get r e true).1 := fun hh => h1 hh.symm
  simpa using h2

/-- Found: loading over a page that is there counts it once more. -/
theorem count_drifts (s : Dyn) {k : Nat} {p q : Page} (hp : s.pages k = some p) (hq : isZero q = false) :
    (s.load1 k q).count = s.count + 1 ∧ ∀ x, ((s.load1 k q).pages x).isSome = (s.pages x).isSome := by
  unfold Dyn.load1
  rw [if_neg (by simp [hq])]
  refine ⟨rfl, fun x => ?_⟩
  simp only [setSlot]
  by_cases e : x = k
  · rw [if_pos e, e, hp]; rfl
  · rw [if_neg e]

/-! Concrete cases. -/

/-- 24-byte entries, 1000 of them: 170 in a page, 6 pages, two copies. -/
def r0 : Raw := ⟨24, 1000, true, 64⟩

example : r0.Ok ∧ r0.inPage = 170 ∧ r0.pages = 6 ∧ r0.segSize = 32 ∧ r0.CopyOk 1 ∧ r0.base 1 = 96 := by
  refine ⟨⟨by decide, by decide, by decide⟩, by decide, by decide, by decide, by simp [Raw.CopyOk, r0], by decide⟩

example : entry r0 (loadAll r0 (flushAll r0 (fun a => a % 251) 1 (fun _ _ => 9)) 1 (fun _ => 7)) 999 23 =
    entry r0 (fun a => a % 251) 999 23 :=
  roundtrip ⟨by decide, by decide, by decide⟩ _ _ _ _ (by decide) (by decide)

/-- UUIDs of 4 cores, one per page; core 0 has one. -/
def r1 : Raw := ⟨4096, 4, true, 0⟩

def s1 : Dyn := ⟨fun k => if k = 0 then some (fun o => if o = 0 then 5 else 0) else none, 1⟩

/-- a checksum injective in its start value that zeros change. -/
def crc1 (c : Nat) (bs : List Nat) : Nat := c + 1 + bs.headD 0

example (d : Dev) :
    (Dyn.init.loadAll (fun _ => true) r1 ((s1.get r1 2 true).1.flushAll r1 1 d) 1).2 = true ∧
    Dyn.accepted crc1 r1 (s1.get r1 2 true).1
      (Dyn.init.loadAll (fun _ => true) r1 ((s1.get r1 2 true).1.flushAll r1 1 d) 1).1 = false := by
  refine ⟨dyn_load_succeeds (fun _ => rfl) _ _ _ _, ?_⟩
  refine zero_page_rejected crc1 ?_ ?_ (by decide) (by rfl) ?_ (dyn_load_succeeds (fun _ => rfl) _ _ _ _)
  · intro bs c c' h; unfold crc1 at h; omega
  · intro k p _ hk
    unfold s1 at hk
    simp only [] at hk
    split at hk
    · cases hk
      cases hz : isZero (fun o => if o = 0 then 5 else 0) with
      | false => rfl
      | true => have := isZero_iff.1 hz 0 (by decide); simp at this
    · cases hk
  · unfold crc1; omega

end Verif.MetaRaw
