import Verif.Model.SbValidate
import Mathlib.Tactic.ByContra
import Mathlib.Logic.Basic

/-! Property C36: loading accepts exactly superblocks whose magic number, version, checksum and fields
are right, and the error tells apart what is wrong. -/

namespace Verif.SbValidate

/-! ### Specification -/

/-- All configuration fields are in range. -/
structure InRange (sb : Sb) : Prop where
  clean : sb.cleanShutdown = 0 ∨ sb.cleanShutdown = 1
  flushed : sb.dirtyFlushed = 0 ∨ sb.dirtyFlushed = 1
  flap : sb.flappingIdx = 0 ∨ sb.flappingIdx = 1
  mode : sb.cacheMode ∈ [0, 1, 2, 3, 4, 5]
  name : (∃ i, i < 32 ∧ sb.name[i]? = some 0) ∨ sb.name.length < 32
  parts : sb.partsNo.toNat ≤ 33
  line : sb.lineSize.toNat ∈ [4 * 1024, 8 * 1024, 16 * 1024, 32 * 1024, 64 * 1024]
  cores : sb.coreCount.toNat ≤ 4096
  cleaning : sb.cleaning ∈ [0, 1, 2]
  disabled : sb.cleanerDisabled = true → sb.cleaning = 0
  promotion : sb.promotion ∈ [0, 1]

theorem strnlen_full (l : List UInt8) (n : Nat) :
    n ≤ strnlen l l.length ↔ n ≤ l.length ∧ ∀ i, i < n → l[i]? ≠ some 0 := by
  induction l generalizing n with
  | nil => cases n <;> simp [strnlen]
  | cons b bs ih =>
    unfold strnlen
    cases n with
    | zero => simp
    | succ n =>
      by_cases q : b = 0
      · simp [q]
        intro _
        exact ⟨0, by omega, by simp⟩
      · simp only [List.length_cons, q, if_false, Nat.add_le_add_iff_right, ih]
        constructor
        · rintro ⟨h1, h2⟩
          refine ⟨h1, fun i hi => ?_⟩
          cases i with
          | zero => simpa using q
          | succ i => simpa using h2 i (by omega)
        · rintro ⟨h1, h2⟩
          exact ⟨h1, fun i hi => by simpa using h2 (i + 1) (by omega)⟩

theorem u8_le1 (x : UInt8) : ¬ x > 1 ↔ x = 0 ∨ x = 1 := by
  rw [← UInt8.toNat_inj, ← UInt8.toNat_inj, gt_iff_lt, UInt8.lt_iff_toNat_lt]
  simp; omega

theorem u32_le1 (x : UInt32) : ¬ x > 1 ↔ x = 0 ∨ x = 1 := by
  rw [← UInt32.toNat_inj, ← UInt32.toNat_inj, gt_iff_lt, UInt32.lt_iff_toNat_lt]
  simp; omega

theorem lineSizeOk_iff (x : UInt64) : ¬ lineSizeOk x = false ↔
    x.toNat ∈ [4 * 1024, 8 * 1024, 16 * 1024, 32 * 1024, 64 * 1024] := by
  simp only [lineSizeOk, ← UInt64.toNat_inj, Bool.or_eq_false_iff, beq_eq_false_iff_ne]
  simp [← UInt64.toNat_inj]
  omega

theorem name_iff (l : List UInt8) : ¬ strnlen l l.length ≥ 32 ↔
    (∃ i, i < 32 ∧ l[i]? = some 0) ∨ l.length < 32 := by
  rw [ge_iff_le, strnlen_full]
  constructor
  · intro h
    by_cases q : l.length < 32
    · exact .inr q
    · refine .inl ?_
      by_contra hc
      exact h ⟨by omega, fun i hi e => hc ⟨i, hi, e⟩⟩
  · rintro (⟨i, h, e⟩ | h) ⟨h1, h2⟩
    · exact h2 i h e
    · omega

theorem ite_some_iff (p : Prop) [Decidable p] (e x : Err) (r : Option Err) :
    (if p then some e else r) = some x ↔ (p ∧ e = x) ∨ (¬ p ∧ r = some x) := by
  by_cases q : p <;> simp [q]

/-- Validation succeeds exactly if magic number, version, checksum and all fields are right. -/
theorem validate_ok_iff (ver : UInt32) (crc : Sb → UInt32) (sb : Sb) :
    validate ver crc sb = none ↔
      sb.magic = 0x187E1CA6 ∧ sb.version = ver ∧ sb.checksum = crc sb ∧ InRange sb := by
  have h1 := u8_le1 sb.cleanShutdown
  have h2 := u8_le1 sb.dirtyFlushed
  have h3 := u32_le1 sb.flappingIdx
  have h4 := name_iff sb.name
  have h5 := lineSizeOk_iff sb.lineSize
  have h6 : ¬ sb.partsNo > 33 ↔ sb.partsNo.toNat ≤ 33 := by
    rw [gt_iff_lt, UInt32.lt_iff_toNat_lt]; simp
  have h7 : ¬ sb.coreCount > 4096 ↔ sb.coreCount.toNat ≤ 4096 := by
    rw [gt_iff_lt, UInt32.lt_iff_toNat_lt]; simp
  have h8 : ¬ (sb.cacheMode < 0 ∨ sb.cacheMode ≥ 6) ↔ sb.cacheMode ∈ ([0, 1, 2, 3, 4, 5] : List Int) := by
    simp; omega
  have h9 : ¬ (sb.cleaning < 0 ∨ sb.cleaning ≥ 3) ↔ sb.cleaning ∈ ([0, 1, 2] : List Int) := by
    simp; omega
  have h10 : ¬ (sb.promotion < 0 ∨ sb.promotion ≥ 2) ↔ sb.promotion ∈ ([0, 1] : List Int) := by
    simp; omega
  have h11 : ¬ (sb.cleanerDisabled = true ∧ sb.cleaning ≠ 0) ↔
      (sb.cleanerDisabled = true → sb.cleaning = 0) := by
    simp
  have h12 : InRange sb ↔ _ ∧ _ ∧ _ ∧ _ ∧ _ ∧ _ ∧ _ ∧ _ ∧ _ ∧ _ ∧ _ :=
    ⟨fun h => ⟨h.clean, h.flushed, h.flap, h.mode, h.name, h.parts, h.line, h.cores, h.cleaning,
      h.disabled, h.promotion⟩,
     fun ⟨a, b, c, d, e, f, g, h, i, j, k⟩ => ⟨a, b, c, d, e, f, g, h, i, j, k⟩⟩
  rw [h12, ← h1, ← h2, ← h3, ← h4, ← h5, ← h6, ← h7, ← h8, ← h9, ← h10, ← h11]
  unfold validate
  have h13 : ∀ (p : Prop) [Decidable p] (e : Err) (r : Option Err),
      (if p then some e else r) = none ↔ ¬ p ∧ r = none := by
    intro p _ e r
    by_cases q : p <;> simp [q]
  simp only [h13, magicNumber, ne_eq, not_not]
  rw [eq_comm (a := ver), eq_comm (a := crc sb)]
  simp only [and_true]

/-- The error says what is wrong: another magic number. -/
theorem no_metadata_iff (ver : UInt32) (crc : Sb → UInt32) (sb : Sb) :
    validate ver crc sb = some .noMetadata ↔ sb.magic ≠ 0x187E1CA6 := by
  unfold validate magicNumber
  simp only [ite_some_iff]
  simp

/-- … another version. -/
theorem metadata_ver_iff (ver : UInt32) (crc : Sb → UInt32) (sb : Sb) :
    validate ver crc sb = some .metadataVer ↔ sb.magic = 0x187E1CA6 ∧ sb.version ≠ ver := by
  unfold validate magicNumber
  simp only [ite_some_iff]
  simp
  grind

/-- … or a checksum that does not fit the contents. -/
theorem crc_mismatch_iff (ver : UInt32) (crc : Sb → UInt32) (sb : Sb) :
    validate ver crc sb = some .crcMismatch ↔
      sb.magic = 0x187E1CA6 ∧ sb.version = ver ∧ sb.checksum ≠ crc sb := by
  unfold validate magicNumber
  simp only [ite_some_iff]
  simp
  grind

/-- … else some field is out of range. -/
theorem inval_iff (ver : UInt32) (crc : Sb → UInt32) (sb : Sb) :
    validate ver crc sb = some .inval ↔
      sb.magic = 0x187E1CA6 ∧ sb.version = ver ∧ sb.checksum = crc sb ∧ ¬ InRange sb := by
  have h1 := validate_ok_iff ver crc sb
  have h2 := no_metadata_iff ver crc sb
  have h3 := metadata_ver_iff ver crc sb
  have h4 := crc_mismatch_iff ver crc sb
  have h5 : ∀ n, validate ver crc sb ≠ some (.other n) := by
    intro n
    unfold validate
    simp only [ne_eq, ite_some_iff]
    simp
  rcases hv : validate ver crc sb with _ | e
  · grind
  · cases e <;> grind

/-- Reading the properties of a cache device succeeds exactly on a readable, right superblock, and
returns what was read. -/
theorem properties_ok_iff (ver : UInt32) (crc : Sb → UInt32) (rd : Except Nat Sb) (sb : Sb) :
    loadProperties ver crc rd = .ok sb ↔ rd = .ok sb ∧ sb.magic = 0x187E1CA6 ∧ sb.version = ver ∧
      sb.checksum = crc sb ∧ InRange sb := by
  rw [← validate_ok_iff]
  unfold loadProperties
  cases rd with
  | error e => simp
  | ok sb' =>
    simp only [Except.ok.injEq]
    cases hv : validate ver crc sb' <;> simp <;> grind

/-- Probing reports cleanness and dirtiness of the data exactly as recorded, if it reports them at all;
it reports them also for another version, but no other field then. -/
theorem probe_status (ver : UInt32) (sb : Sb) (err : Option Err) (st : ProbeStatus)
    (h : probe ver (.ok sb) = (err, some st)) :
    sb.magic = 0x187E1CA6 ∧ (st.cleanShutdown = true ↔ sb.cleanShutdown = 1) ∧
    (st.cacheDirty = true ↔ sb.dirtyFlushed = 0) ∧
    (err = none ↔ sb.version = ver) ∧ (err ≠ none → err = some .metadataVer) ∧
    (err = none → st.name = some sb.name ∧ st.cacheMode = some sb.cacheMode ∧
      st.lineSize = some sb.lineSize) := by
  have h1 := u8_le1 sb.cleanShutdown
  unfold probe magicNumber at h
  simp only at h
  split at h
  · simp at h
  · split at h
    · simp at h
    · next q1 =>
      have := h1.1 q1
      split at h
      · simp at h
      · split at h
        · simp only [Prod.mk.injEq, Option.some.injEq] at h
          obtain ⟨rfl, rfl⟩ := h
          grind
        · simp only [Prod.mk.injEq, Option.some.injEq] at h
          obtain ⟨rfl, rfl⟩ := h
          grind

/-- What probing does not notice: a superblock with a wrong checksum is reported as good. -/
theorem probe_ignores_checksum : ∃ (ver : UInt32) (crc : Sb → UInt32) (sb : Sb),
    loadProperties ver crc (.ok sb) = .error .crcMismatch ∧ (probe ver (.ok sb)).1 = none := by
  refine ⟨7, fun _ => 1, ⟨0, 0, 0x187E1CA6, 7, 0, 0, [0], 1, 4096, 0, fun _ => false, false, 0, 0, [], 2⟩,
    ?_, by decide⟩
  have : validate 7 (fun _ => 1) ⟨0, 0, 0x187E1CA6, 7, 0, 0, [0], 1, 4096, 0, fun _ => false, false, 0, 0,
    [], 2⟩ = some .crcMismatch := by decide
  unfold loadProperties
  simp only
  rw [this]

/-! ### The core configuration check -/

theorem validateCores_iff (bitmap valid : Nat → Bool) (id n : Nat) :
    validateCores bitmap valid id n = none ↔ ∀ i, id ≤ i → i < id + n → bitmap i = valid i := by
  induction n generalizing id with
  | zero => simp [validateCores]; omega
  | succ n ih =>
    unfold validateCores
    by_cases q : bitmap id = valid id
    · have e : (if bitmap id = true ∧ valid id = false then some Err.inval
          else if valid id = true ∧ bitmap id = false then some Err.inval
          else validateCores bitmap valid (id + 1) n) = validateCores bitmap valid (id + 1) n := by
        rw [q]
        cases valid id <;> simp
      rw [e, ih]
      constructor
      · intro h i h1 h2
        by_cases e : i = id
        · exact e ▸ q
        · exact h i (by omega) (by omega)
      · intro h i h1 h2
        exact h i (by omega) (by omega)
    · have : (if bitmap id = true ∧ valid id = false then some Err.inval
          else if valid id = true ∧ bitmap id = false then some Err.inval
          else validateCores bitmap valid (id + 1) n) = some .inval := by
        revert q
        cases bitmap id <;> cases valid id <;> simp
      rw [this]
      simp
      exact ⟨id, by omega, by omega, q⟩

/-! ### The pipeline -/

variable {D : Type}

theorem loadSegs_next {e : Env D} {ss : List Seg} {m m' : Seg → D} (h : loadSegs e ss m = .next m') :
    (.sbConfig ∉ ss → ∀ s ∈ ss, e.rd s (flapIdx e m s) = (m' s, none)) ∧
    ∀ s, s ∉ ss → m' s = m s := by
  induction ss generalizing m with
  | nil =>
    simp only [loadSegs, Out.next.injEq] at h
    subst h
    simp
  | cons s ss ih =>
    unfold loadSegs at h
    simp only at h
    split at h
    · cases h
    · split at h
      · cases h
      · next d hd =>
        have := ih h
        constructor
        · intro hn s' hs'
          have hn1 : Seg.sbConfig ≠ s := fun e => hn (by simp [e])
          have hn2 : Seg.sbConfig ∉ ss := fun e => hn (by simp [e])
          have hsb : put m s d .sbConfig = m .sbConfig := by simp [put, hn1]
          have h2 := this.1 hn2
          have hfi : ∀ s', flapIdx e (put m s d) s' = flapIdx e m s' := fun s' => by
            unfold flapIdx; rw [hsb]
          simp only [hfi] at h2
          by_cases hm : s' ∈ ss
          · exact h2 s' hm
          · have e1 : s' = s := by simpa [hm] using hs'
            subst e1
            rw [this.2 _ hm, hd]
            simp [put]
        · intro s' hs'
          rw [this.2 s' (fun h => hs' (by simp [h]))]
          have : s' ≠ s := fun h => hs' (by simp [h])
          simp [put, this]

theorem loadSegs_bug {e : Env D} {ss : List Seg} {m : Seg → D} (hs : .sbConfig ∉ ss)
    (hf : (e.sbOf (m .sbConfig)).flappingIdx.toNat ≤ 1) : loadSegs e ss m ≠ .bug := by
  induction ss generalizing m with
  | nil => simp [loadSegs]
  | cons s ss ih =>
    unfold loadSegs
    simp only
    rw [if_neg]
    · split
      · simp
      · next d hd =>
        have hn1 : Seg.sbConfig ≠ s := fun e => hs (by simp [e])
        refine ih (fun h => hs (by simp [h])) ?_
        simpa [put, hn1] using hf
    · unfold flapIdx
      cases flapped s <;> simp; omega

theorem loadSegs_frame {e : Env D} {ss : List Seg} {m m' : Seg → D} {err : Err}
    (h : loadSegs e ss m = .fail m' err) : ∀ s, s ∉ ss → m' s = m s := by
  induction ss generalizing m with
  | nil => simp [loadSegs] at h
  | cons s ss ih =>
    unfold loadSegs at h
    simp only at h
    split at h
    · cases h
    · split at h
      · next d er hd =>
        simp only [Out.fail.injEq] at h
        obtain ⟨rfl, -⟩ := h
        intro s' hs'
        have : s' ≠ s := fun h => hs' (by simp [h])
        simp [put, this]
      · next d hd =>
        intro s' hs'
        have : s' ≠ s := fun h => hs' (by simp [h])
        rw [ih h s' (fun h => hs' (by simp [h]))]
        simp [put, this]

theorem checkCrcs_iff {e : Env D} {ss : List Seg} {m : Seg → D} :
    checkCrcs e ss m = none ↔ ∀ s ∈ ss, e.crcSeg s (m s) = e.sum (m .sbConfig) s := by
  induction ss with
  | nil => simp [checkCrcs]
  | cons s ss ih =>
    unfold checkCrcs
    by_cases q : e.crcSeg s (m s) = e.sum (m .sbConfig) s
    · simp [q, ih]
    · simp [q]

theorem store_ok {e : Env D} {m : Seg → D} {ss : List Seg} {c c' : Seg → Option D}
    {r : Option Err} (h : store e m ss c = (c', r)) (hc : ∀ s, c s = none ∨ c s = some (m s)) :
    (∀ s, c' s = none ∨ c' s = some (m s)) ∧
    (r = none → ∀ s, (s ∈ ss ∨ c s = some (m s)) → c' s = some (m s)) ∧
    (∀ s, s ∉ ss → c s = none → c' s = none) := by
  induction ss generalizing c with
  | nil =>
    simp only [store, Prod.mk.injEq] at h
    obtain ⟨rfl, rfl⟩ := h
    exact ⟨hc, fun _ s hs => by simpa using hs, fun s _ => id⟩
  | cons s ss ih =>
    unfold store at h
    split at h
    · have := ih h (fun s' => by by_cases q : s' = s <;> simp [q, hc])
      refine ⟨this.1, fun hr s' hs' => this.2.1 hr s' ?_, fun s' hs' hn => this.2.2 s' ?_ ?_⟩
      · by_cases q : s' = s
        · simp [q]
        · simpa [q] using hs'
      · exact fun h => hs' (by simp [h])
      · have : s' ≠ s := fun h => hs' (by simp [h])
        simpa [this] using hn
    · simp only [Prod.mk.injEq] at h
      obtain ⟨rfl, rfl⟩ := h
      exact ⟨hc, by simp, fun s _ => id⟩

/-- What holds of memory when loading was successful. -/
structure Loaded (e : Env D) (recovery : Bool) (m m' : Seg → D) : Prop where
  /-- The superblock is what was read, and valid. -/
  sb : e.rd .sbConfig 0 = (m' .sbConfig, none)
  magic : (e.sbOf (m' .sbConfig)).magic = 0x187E1CA6
  version : (e.sbOf (m' .sbConfig)).version = e.ver
  crc : (e.sbOf (m' .sbConfig)).checksum = e.crcSb (e.sbOf (m' .sbConfig))
  range : InRange (e.sbOf (m' .sbConfig))
  /-- The segments are what was read from the place the superblock names, and have the right checksum. -/
  segs : ∀ s ∈ loadArgs recovery, e.crcSeg s (m' s) = e.sum (m' .sbConfig) s ∧ e.rd s
    (if flapped s then (e.sbOf (m' .sbConfig)).flappingIdx.toNat else 0) = (m' s, none)
  /-- Bitmap of cores and core configuration agree. -/
  cores : ∀ id, id < 4096 → (e.sbOf (m' .sbConfig)).bitmap id = e.coreValid (m' .coreConfig) id
  /-- Nothing else changed. -/
  frame : ∀ s, s ≠ .sbConfig → s ∉ loadArgs recovery → m' s = m s

theorem body_next {e : Env D} {rec : Bool} {m m' : Seg → D} (h : body e rec m = .next m') :
    Loaded e rec m m' := by
  have hna : Seg.sbConfig ∉ loadArgs rec := by cases rec <;> decide
  unfold body at h
  split at h
  · next m1 h1 =>
    split at h
    · cases h
    · next hv =>
      split at h
      · next m2 h2 =>
        split at h
        · cases h
        · next hc =>
          split at h
          · cases h
          · next hk =>
            simp only [Out.next.injEq] at h
            subst h
            have f2 := loadSegs_next h2
            have f1 := (loadSegs_next h1).2
            have hsb : m2 .sbConfig = m1 .sbConfig := f2.2 _ hna
            have hv' := (validate_ok_iff _ _ _).1 hv
            have hr : e.rd .sbConfig 0 = (m1 .sbConfig, none) := by
              unfold loadSegs at h1
              simp only [flapIdx, flapped] at h1
              simp only [Bool.false_eq_true, if_false, ne_eq, not_true, false_and, and_false, or_self] at h1
              split at h1
              · cases h1
              · next d hd =>
                simp only [loadSegs, Out.next.injEq] at h1
                rw [hd, ← h1]
                simp [put]
            refine ⟨hsb ▸ hr, hsb ▸ hv'.1, hsb ▸ hv'.2.1, hsb ▸ hv'.2.2.1, hsb ▸ hv'.2.2.2, ?_, ?_, ?_⟩
            · intro s hs
              refine ⟨checkCrcs_iff.1 hc s hs, ?_⟩
              have := f2.1 hna s hs
              unfold flapIdx at this
              rw [hsb]
              exact this
            · intro id hid
              exact (validateCores_iff _ _ _ _).1 hk id (by omega) (by omega)
            · intro s hs1 hs2
              rw [f2.2 s hs2, f1 s (by simpa using hs1)]
      · next r hr => exact absurd h (hr _)
  · next r hr => exact absurd h (hr _)

/-- A load that succeeds has loaded a superblock with the right magic number, version, checksum and
fields, and segments with the right checksums from the place it names. -/
theorem load_ok {e : Env D} {rec : Bool} {m m' : Seg → D} (h : load e rec m = some (m', none)) :
    Loaded e rec m m' := by
  unfold load at h
  split at h
  · simp at h
  · split at h
    · next m2 hb =>
      simp only [Option.some.injEq, Prod.mk.injEq, and_true] at h
      subst h
      exact body_next hb
    · simp at h
    · simp at h

theorem body_fail {e : Env D} {rec : Bool} {m m' : Seg → D} {err : Err}
    (h : body e rec m = .fail m' err) : ∀ s, s ≠ .sbConfig → s ∉ loadArgs rec → m' s = m s := by
  intro s hs1 hs2
  have hs3 : s ∉ [Seg.sbConfig] := by simpa using hs1
  unfold body at h
  split at h
  · next m1 h1 =>
    have f1 := (loadSegs_next h1).2 s hs3
    split at h
    · simp only [Out.fail.injEq] at h
      rw [← h.1, f1]
    · split at h
      · next m2 h2 =>
        have f2 := (loadSegs_next h2).2 s hs2
        split at h
        · simp only [Out.fail.injEq] at h
          rw [← h.1, f2, f1]
        · split at h
          · simp only [Out.fail.injEq] at h
            rw [← h.1, f2, f1]
          · cases h
      · rw [loadSegs_frame h s hs2, f1]
  · exact loadSegs_frame h s hs3

/-- A load that fails leaves the configuration in memory as it was, except for the core UUIDs. -/
theorem load_fail_restores {e : Env D} {rec : Bool} {m m' : Seg → D} {err : Err}
    (h : load e rec m = some (m', some err)) (s : Seg) (hs : s ≠ .coreUuid) : m' s = m s := by
  unfold load at h
  split at h
  · next c er hst =>
    have := (store_ok hst (by simp)).1 s
    simp only [Option.some.injEq, Prod.mk.injEq] at h
    rw [← h.1]
    unfold restore
    rcases this with h | h <;> simp [h]
  · next c hst =>
    have := store_ok hst (by simp)
    split at h
    · simp at h
    · next m2 er hb =>
      simp only [Option.some.injEq, Prod.mk.injEq] at h
      rw [← h.1]
      have hm : s ∈ storeArgs := by cases s <;> simp_all [storeArgs]
      unfold restore
      rw [this.2.1 rfl s (.inl hm)]
      rfl
    · simp at h

/-- The assertion about the flapping index never fails, whatever is on the device. -/
theorem load_no_assert (e : Env D) (rec : Bool) (m : Seg → D) : load e rec m ≠ none := by
  have hna : Seg.sbConfig ∉ loadArgs rec := by cases rec <;> decide
  unfold load
  split
  · simp
  · split
    · simp
    · simp
    · next hb =>
      exfalso
      unfold body at hb
      split at hb
      · next m1 h1 =>
        split at hb
        · cases hb
        · next hv =>
          have hf := ((validate_ok_iff _ _ _).1 hv).2.2.2.flap
          split at hb
          · split at hb
            · cases hb
            · split at hb <;> cases hb
          · refine loadSegs_bug hna ?_ hb
            rcases hf with q | q <;> rw [q] <;> decide
      · unfold loadSegs at hb
        simp only [flapIdx, flapped] at hb
        simp only [Bool.false_eq_true, if_false, ne_eq, not_true, false_and, and_false, or_self] at hb
        split at hb
        · cases hb
        · simp [loadSegs] at hb

/-- If the superblock can be read and memory suffices, the error of a superblock that is not valid is
the one of validation. -/
theorem load_error_of_invalid {e : Env D} {rec : Bool} {m : Seg → D} {d : D} {err : Err}
    (ha : ∀ s, e.alloc s = true) (hr : e.rd .sbConfig 0 = (d, none))
    (hv : validate e.ver e.crcSb (e.sbOf d) = some err) :
    ∃ m', load e rec m = some (m', some err) := by
  have h1 : loadSegs e [.sbConfig] m = .next (put m .sbConfig d) := by
    simp [loadSegs, flapIdx, flapped, hr]
  have h2 : body e rec m = .fail (put m .sbConfig d) err := by
    unfold body
    rw [h1]
    simp [put, hv]
  have h3 : (store e m storeArgs (fun _ => none)).2 = none := by
    simp [storeArgs, store, ha]
  unfold load
  rcases hst : store e m storeArgs (fun _ => none) with ⟨c, r⟩
  rw [hst] at h3
  simp only at h3
  subst h3
  simp only [h2]
  exact ⟨_, rfl⟩

/-! ### Concrete cases -/

/-- A right superblock. -/
def sb0 : Sb :=
  ⟨1, 1, 0x187E1CA6, 0x140400, 1, 2, [99, 49, 0, 0], 2, 8192, 1, fun i => i == 5, false, 1, 1, [3], 77⟩

example : validate 0x140400 (fun _ => 77) sb0 = none := by decide
example : validate 0x140400 (fun _ => 77) { sb0 with cleaning := 3 } = some .inval := by decide
example : validate 0x140401 (fun _ => 77) { sb0 with cleaning := 3 } = some .metadataVer := by decide
example : validate 0x140400 (fun _ => 78) sb0 = some .crcMismatch := by decide
example : (probe 0x140401 (.ok sb0)).1 = some .metadataVer := by decide

/-- Device contents are numbers: 0 is the superblock `sb0`, in the other segments core 5 is valid. -/
def env0 (bad : Bool) : Env Nat :=
  { ver := 0x140400, sbOf := fun _ => sb0, crcSb := fun _ => 77, coreValid := fun _ i => i == 5,
    sum := fun _ _ => 10, crcSeg := fun s d => if bad ∧ s = .partConfig then 0 else d,
    rd := fun s i => (if s = .sbConfig then 0 else 9 + i * (if flapped s then 1 else 0) +
      (if flapped s then 0 else 1), none), alloc := fun _ => true }

theorem env0_next : ∃ m', load (env0 false) true (fun _ => 3) = some (m', none) ∧ m' .partConfig = 10 := by
  have hk : validateCores sb0.bitmap (fun i => i == 5) 0 4096 = none :=
    (validateCores_iff _ _ _ _).2 (fun i _ _ => rfl)
  refine ⟨put (put (put (put (fun _ => 3) .sbConfig 0) .partConfig 10) .coreConfig 10) .coreUuid 10,
    ?_, by decide⟩
  have hv : validate 0x140400 (fun _ => 77) sb0 = none := by decide
  simp [load, store, storeArgs, env0, body, loadSegs, flapIdx, flapped, loadArgs, sb0, checkCrcs, put] at *
  rw [hv]
  simp [hk]

/-- What is not restored: the UUIDs of the cores. A load that fails after they were read leaves those
of the device in memory with the old core configuration. -/
theorem uuid_not_restored : ∃ m', load (env0 true) true (fun _ => 3) = some (m', some .crcMismatch) ∧
    m' .coreConfig = 3 ∧ m' .coreUuid = 10 := by
  have hv : validate 0x140400 (fun _ => 77) sb0 = none := by decide
  refine ⟨fun s => if s = .coreUuid then 10 else 3, ?_, by decide, by decide⟩
  simp [load, store, storeArgs, env0, body, loadSegs, flapIdx, flapped, loadArgs, sb0, checkCrcs, put] at *
  rw [hv]
  simp
  funext s
  cases s <;> simp [restore, put]

end Verif.SbValidate
