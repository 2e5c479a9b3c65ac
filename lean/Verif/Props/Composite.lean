import Verif.Lemma.Composite

/-!
C20. Specification: `locate` says where byte `x` of the concatenation lives (member, byte within
the member), by recursion on the member list; an I/O is the list of bytes
`(member, member byte, buffer byte)` it transfers, in order.
-/

namespace Verif.Composite

/-- Specification: byte `x` of the concatenation of members of the given lengths. -/
def locate : List Nat → Nat → Nat × Nat
  | [], x => (0, x)
  | l :: ls, x => if x < l then (0, x) else let (m, y) := locate ls (x - l); (m + 1, y)

/-- Specification: the bytes transferred by one member I/O. -/
def Part.bytesMoved (p : Part) : List (Nat × Nat × Nat) :=
  (List.range p.bytes).map fun k => (p.member, p.addr + k, p.offset + k)

/-- Specification: the bytes an I/O to the concatenation has to transfer. -/
def wanted (lens : List Nat) (addr bytes offset : Nat) : List (Nat × Nat × Nat) :=
  (List.range bytes).map fun k =>
    ((locate lens (addr + k)).1, (locate lens (addr + k)).2, offset + k)

theorem locate_eq (ms : List Member) (i x : Nat) (hi : i < ms.length)
    (h1 : startAt ms i ≤ x) (h2 : x < startAt ms (i + 1)) :
    locate (ms.map (·.len)) x = (i, x - startAt ms i) := by
  induction ms generalizing i x with
  | nil => simp at hi
  | cons m ms ih =>
    cases i with
    | zero =>
      simp [startAt] at h2
      simp [locate, h2, startAt]
    | succ i =>
      have e1 : startAt (m :: ms) (i + 1) = m.len + startAt ms i := by simp [startAt]
      have e2 : startAt (m :: ms) (i + 1 + 1) = m.len + startAt ms (i + 1) := by
        simp [startAt]
      rw [e1] at h1 ⊢
      rw [e2] at h2
      have := ih i (x - m.len) (by simpa using hi) (by omega) (by omega)
      simp only [List.map_cons, locate, this]
      rw [if_neg (by omega)]
      simp only [Prod.mk.injEq, true_and]; omega

theorem forwardLoop_spec (ms : List Member) (hopen : ∀ m ∈ ms, m.opened = true)
    (i addr caddr bytes offset : Nat) (hi : i ≤ ms.length)
    (h1 : startAt ms i ≤ caddr) (h2 : bytes ≠ 0 → caddr ≤ startAt ms (i + 1))
    (ha : addr = caddr - startAt ms i)
    (h3 : caddr + bytes ≤ startAt ms ms.length) :
    ((openVol ms).forwardLoop i addr caddr bytes offset).ok = true ∧
    ((openVol ms).forwardLoop i addr caddr bytes offset).parts.flatMap Part.bytesMoved =
      wanted (ms.map (·.len)) caddr bytes offset := by
  fun_induction Vol.forwardLoop (openVol ms) i addr caddr bytes offset with
  | case1 i addr caddr bytes offset hc hno =>
    exfalso
    have hlt : i < ms.length := hc.1
    have : ms[i].opened = true := hopen _ (List.getElem_mem hlt)
    simp [Vol.openAt, openVol, hlt, this] at hno
  | case2 i addr caddr bytes offset hc hno mb r ih =>
    have hlt : i < ms.length := hc.1
    have hend := endAt_open ms i hlt
    have hle := h2 hc.2
    have hmb : mb = min bytes (startAt ms (i + 1) - caddr) := by simp [mb, hend]
    have hrest : bytes - mb ≠ 0 → startAt ms (i + 1) - caddr = mb := by omega
    rw [hend] at ih
    have hmono := startAt_mono ms (i + 1)
    have hih : caddr + bytes ≤ startAt ms ms.length → _ := fun h => h
    -- `caddr + mb` is the end of member `i` unless nothing is left
    by_cases hz : bytes - mb = 0
    · have hb : mb = bytes := by omega
      have hr : r = { parts := [], ok := true } := by
        simp only [r]
        rw [Vol.forwardLoop, if_neg (by simp; omega)]
      simp only [hr, List.flatMap_cons, List.flatMap_nil, List.append_nil, true_and]
      simp only [Part.bytesMoved, wanted, hb]
      apply List.map_congr_left
      intro k hk
      have hk' : k < bytes := by simpa using hk
      rw [locate_eq ms i (caddr + k) hlt (by omega) (by omega)]
      simp only [Prod.mk.injEq, true_and, and_true]; omega
    · have hmbe := hrest hz
      have := ih (by omega) (Nat.le_refl _) (fun _ => hmono) (by omega) (by omega)
      refine ⟨by have := this.1; rw [← hend] at this; exact this, ?_⟩
      have h2' := this.2
      rw [← hend] at h2'
      simp only [List.flatMap_cons]
      show _ ++ List.flatMap Part.bytesMoved r.parts = _
      rw [show List.flatMap Part.bytesMoved r.parts = _ from h2', hend]
      have hsplit : bytes = mb + (bytes - mb) := by omega
      unfold wanted
      conv => rhs; rw [hsplit, List.range_add, List.map_append, List.map_map]
      congr 1
      · simp only [Part.bytesMoved]
        apply List.map_congr_left
        intro k hk
        have hk' : k < mb := by simpa using hk
        rw [locate_eq ms i (caddr + k) hlt (by omega) (by omega)]
        simp only [Prod.mk.injEq, true_and, and_true]; omega
      · apply List.map_congr_left
        intro k hk
        have e1 : caddr + (mb + k) = startAt ms (i + 1) + k := by omega
        have e2 : offset + (mb + k) = offset + mb + k := by omega
        simp only [Function.comp_apply, e1, e2]
  | case3 i addr caddr bytes offset hc =>
    refine ⟨rfl, ?_⟩
    have : bytes = 0 := by
      apply Classical.byContradiction
      intro hb
      have hni : ¬ i < ms.length := fun h => hc ⟨h, hb⟩
      have : i = ms.length := by omega
      subst this; omega
    subst this
    simp [wanted]

/-- C20: an in-range I/O to a composite volume with all members open moves exactly the bytes of
the concatenation, in order, each once. -/
theorem forwardIo_exact (ms : List Member) (hopen : ∀ m ∈ ms, m.opened = true)
    (addr bytes offset : Nat) (hb : bytes ≠ 0)
    (hr : addr + bytes ≤ (ms.map (·.len)).sum) :
    ∃ o, (openVol ms).forwardIo addr bytes offset = some o ∧ o.ok = true ∧
      o.parts.flatMap Part.bytesMoved = wanted (ms.map (·.len)) addr bytes offset := by
  have htot : startAt ms ms.length = (ms.map (·.len)).sum := by simp [startAt]
  have hlen := length_open ms
  have ha : addr < startAt ms ms.length := by omega
  obtain ⟨hj1, hj2, hj3⟩ := seek_spec ms addr 0 (by simp [startAt]) (by omega) ha
  have hopenj : (openVol ms).openAt ((openVol ms).seek addr 0) = true := by
    have : ms[(openVol ms).seek addr 0].opened = true := hopen _ (List.getElem_mem hj1)
    have hj1' : (openVol ms).seek addr 0 < (openVol ms).members.length := hj1
    simp [Vol.openAt, hj1']
    exact this
  refine ⟨_, by
    unfold Vol.forwardIo
    rw [if_neg (by omega), if_neg (by omega)]
    simp only [hopenj, Bool.not_true, Bool.false_eq_true, and_false, if_false]
    rfl, ?_⟩
  apply forwardLoop_spec ms hopen _ _ _ _ _ (by omega) hj2 (fun _ => by omega) _ (by omega)
  have hj1'' : (openVol ms).seek addr 0 < (openVol ms).cnt := hj1
  rw [if_pos hj1'']
  split
  · rename_i hpos
    rw [endAt_open ms _ (by omega)]
    congr 2; omega
  · rename_i hz
    have : (openVol ms).seek addr 0 = 0 := by omega
    rw [this]; simp [startAt]

/-- C20: every member I/O stays inside its member. -/
theorem forwardLoop_in_member (ms : List Member) (i addr caddr bytes offset : Nat)
    (h1 : startAt ms i ≤ caddr) (ha : addr = caddr - startAt ms i) :
    ∀ p ∈ ((openVol ms).forwardLoop i addr caddr bytes offset).parts,
      ∃ m, ms[p.member]? = some m ∧ (p.bytes = 0 ∨ p.addr + p.bytes ≤ m.len) := by
  fun_induction Vol.forwardLoop (openVol ms) i addr caddr bytes offset with
  | case1 => simp
  | case2 i addr caddr bytes offset hc hno mb r ih =>
    have hlt : i < ms.length := hc.1
    have hend := endAt_open ms i hlt
    intro p hp
    rcases List.mem_cons.1 hp with rfl | hp
    · refine ⟨ms[i], by simp [hlt], ?_⟩
      have := startAt_succ ms i hlt
      have hmb : mb = min bytes (startAt ms (i + 1) - caddr) := by simp [mb, hend]
      simp only; omega
    · exact ih (by rw [hend]; exact Nat.le_refl _) (by rw [hend]; omega) p hp
  | case3 => simp

/-- C20: out-of-range requests hit the assertion, never a wrong member. -/
theorem forwardIo_out_of_range (ms : List Member) (addr bytes offset : Nat)
    (h : (ms.map (·.len)).sum ≤ addr ∨ (ms.map (·.len)).sum < addr + bytes) :
    (openVol ms).forwardIo addr bytes offset = none := by
  have htot : startAt ms ms.length = (ms.map (·.len)).sum := by simp [startAt]
  have hlen := length_open ms
  unfold Vol.forwardIo
  by_cases h1 : addr ≥ (openVol ms).length
  · rw [if_pos h1]
  · rw [if_neg h1, if_pos (by omega)]

/-- C20, simple I/O: it is forwarded (as one part) iff the range lies within one member, and then
it moves exactly the wanted bytes; otherwise an error is reported and nothing is forwarded. -/
theorem forwardIoSimple_exact (ms : List Member) (hopen : ∀ m ∈ ms, m.opened = true)
    (addr bytes : Nat) (hb : bytes ≠ 0) (hr : addr + bytes ≤ (ms.map (·.len)).sum) :
    ∃ o, (openVol ms).forwardIoSimple addr bytes = some o ∧
      (o.ok = true ↔ (locate (ms.map (·.len)) addr).1 =
        (locate (ms.map (·.len)) (addr + bytes - 1)).1) ∧
      (o.ok = true → o.parts.flatMap Part.bytesMoved = wanted (ms.map (·.len)) addr bytes 0) ∧
      (o.ok = false → o.parts = []) := by
  have htot : startAt ms ms.length = (ms.map (·.len)).sum := by simp [startAt]
  have hlen := length_open ms
  have ha : addr < startAt ms ms.length := by omega
  obtain ⟨hj1, hj2, hj3⟩ := seek_spec ms addr 0 (by simp [startAt]) (by omega) ha
  obtain ⟨hl1, hl2, hl3⟩ := seek_spec ms (addr + bytes - 1) 0 (by simp [startAt]) (by omega) (by omega)
  have hopenj : (openVol ms).openAt ((openVol ms).seek addr 0) = true := by
    have : ms[(openVol ms).seek addr 0].opened = true := hopen _ (List.getElem_mem hj1)
    have hj1' : (openVol ms).seek addr 0 < (openVol ms).members.length := hj1
    simp [Vol.openAt, hj1']
    exact this
  generalize hjdef : (openVol ms).seek addr 0 = j at hj1 hj2 hj3 hopenj
  generalize (openVol ms).seek (addr + bytes - 1) 0 = l at hl1 hl2 hl3
  have hendj := endAt_open ms j hj1
  have haddr : (if j < (openVol ms).cnt then
      addr - (if j > 0 then (openVol ms).endAt (j - 1) else 0) else addr) = addr - startAt ms j := by
    rw [if_pos (show j < (openVol ms).cnt from hj1)]
    split
    · rw [endAt_open ms _ (by omega)]
      congr 2; omega
    · have : j = 0 := by omega
      rw [this]; simp [startAt]
  rw [locate_eq ms j addr hj1 hj2 hj3, locate_eq ms l _ hl1 hl2 hl3]
  have hred : (openVol ms).forwardIoSimple addr bytes =
      (if addr + bytes > startAt ms (j + 1) then some { parts := [], ok := false }
      else some { parts := [⟨j, addr - startAt ms j, bytes, 0⟩], ok := true }) := by
    unfold Vol.forwardIoSimple
    rw [if_neg (by omega), if_neg (by omega)]
    simp only [hjdef, hopenj, Bool.not_true, Bool.false_eq_true, and_false, if_false, hendj]
    rw [haddr]
  have hmono : ∀ a b, a ≤ b → startAt ms a ≤ startAt ms b := by
    intro a b hab
    induction hab with
    | refl => exact Nat.le_refl _
    | step _ ih => exact Nat.le_trans ih (startAt_mono ms _)
  rw [hred]
  by_cases hin : addr + bytes > startAt ms (j + 1)
  · rw [if_pos hin]
    refine ⟨_, rfl, ?_, by simp, by simp⟩
    simp only [Bool.false_eq_true, false_iff]
    intro h; subst h; omega
  · rw [if_neg hin]
    refine ⟨_, rfl, ?_, ?_, by simp⟩
    · simp only [true_iff]
      apply Classical.byContradiction
      intro hne
      rcases Nat.lt_or_gt_of_ne hne with h | h
      · have := hmono (j + 1) l h; omega
      · have := hmono (l + 1) j h; omega
    · intro _
      simp only [List.flatMap_cons, List.flatMap_nil, List.append_nil, Part.bytesMoved, wanted]
      apply List.map_congr_left
      intro k hk
      have hk' : k < bytes := by simpa using hk
      rw [locate_eq ms j (addr + k) hj1 (by omega) (by omega)]
      simp only [Prod.mk.injEq, true_and, and_true]; omega

/-- C20: a flush reaches every member once. -/
theorem forwardFlush_all (ms : List Member) :
    (openVol ms).forwardFlush.Nodup ∧ ∀ i, i ∈ (openVol ms).forwardFlush ↔ i < ms.length :=
  ⟨List.nodup_range, fun i => by simp [Vol.forwardFlush, Vol.cnt, openVol]⟩

/-! Non-vacuity: an I/O over three members. -/
example : ((openVol [⟨4, true⟩, ⟨2, true⟩, ⟨8, true⟩]).forwardIo 3 5 10) =
    some ⟨[⟨0, 3, 1, 10⟩, ⟨1, 0, 2, 11⟩, ⟨2, 0, 2, 13⟩], true⟩ := by
  simp [Vol.forwardIo, openVol, endAddrs, Vol.seek, Vol.endAt, Vol.openAt, Vol.cnt,
    Vol.forwardLoop]

end Verif.Composite
