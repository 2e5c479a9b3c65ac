import Verif.Model.Mode

/-!
Cache mode resolution (C33).
-/

namespace Verif.Mode

/-! ## What is expected -/

/-- The cache must not serve the request: too many errors, metadata being attached, unaligned
request while those bypass the cache, request larger than the cache, or part of a stream that
sequential cutoff sends past the cache. -/
def Bypass (c : Cache) (r : Req) (cutoff : Bool) : Prop :=
  (0 < c.threshold ∧ c.threshold ≤ c.errors) ∨ c.attachPt = true ∨
  (c.ptUnaligned = true ∧ ¬ (4096 ∣ r.addr ∧ 4096 ∣ r.bytes)) ∨
  c.lines < r.lineCount ∨ cutoff = true

/-- Class of the request: the one it names if it exists, else the default class. -/
inductive ClassOf (c : Cache) (r : Req) : Nat → Prop
  | named (hlt : r.ioClass < c.classMax) (hv : c.clsValid r.ioClass = true) :
      ClassOf c r r.ioClass
  | dflt (hno : ¬ (r.ioClass < c.classMax ∧ c.clsValid r.ioClass = true)) : ClassOf c r 0

/-- Configured mode: that of the class if it has one (0..5), else that of the cache. -/
inductive Configured (c : Cache) (r : Req) : Int → Prop
  | ofClass (k : Nat) (hk : ClassOf c r k) (h0 : 0 ≤ c.clsMode k) (h1 : c.clsMode k ≤ 5) :
      Configured c r (c.clsMode k)
  | ofCache (k : Nat) (hk : ClassOf c r k) (hno : ¬ (0 ≤ c.clsMode k ∧ c.clsMode k ≤ 5)) :
      Configured c r c.mode

/-- Engines that leave data in the cache only (`ocf_write_fast` continues as `ocf_write_wb_do`,
`/repo/src/engine/engine_fast.c:157`). -/
def LeavesDirty (e : Engine) : Prop := e = .writeWb ∨ e = .writeFast

/-- The engine for each mode, as documented for the modes in `/repo/inc/ocf_def.h:153-173`: all
modes but pass-through and write-only fill the cache on reads; writes go through to the core, stay
in the cache, go around it, or invalidate. -/
inductive Serves : Int → Bool → Engine → Prop
  | read (m : Int) (h : m = 0 ∨ m = 1 ∨ m = 2 ∨ m = 4) : Serves m false .readGeneric
  | readWriteOnly : Serves 5 false .readWo
  | readPass : Serves 3 false .readPt
  | through : Serves 0 true .writeWt
  | back (m : Int) (h : m = 1 ∨ m = 5) : Serves m true .writeWb
  | around : Serves 2 true .writeWa
  | invalidate (m : Int) (h : m = 3 ∨ m = 4) : Serves m true .writeWi

/-! ## Theorems -/

theorem class2id_idem (c : Cache) (k : Nat) : class2id c (class2id c k) = class2id c k := by
  unfold class2id
  by_cases h : k < c.classMax
  · by_cases hv : c.clsValid k = true
    · simp [h, hv]
    · simp [h, hv]
  · simp [h]

theorem class2id_spec (c : Cache) (r : Req) : ClassOf c r (class2id c r.ioClass) := by
  unfold class2id
  split
  · rename_i h
    split
    · rename_i hv; exact .named h hv
    · rename_i hv; exact .dflt (fun h' => hv h'.2)
  · rename_i h; exact .dflt (fun h' => h h'.1)

theorem bypass_iff (c : Cache) (r : Req) (cutoff : Bool) :
    Bypass c r cutoff ↔ (fallbackOn c = true ∨ c.attachPt = true ∨
      (c.ptUnaligned && !is4k r) = true ∨ r.lineCount > c.lines ∨ cutoff = true) := by
  unfold Bypass
  have h1 : (0 < c.threshold ∧ c.threshold ≤ c.errors) ↔ fallbackOn c = true := by
    unfold fallbackOn; split <;> simp <;> omega
  have h2 : (c.ptUnaligned = true ∧ ¬ (4096 ∣ r.addr ∧ 4096 ∣ r.bytes)) ↔
      (c.ptUnaligned && !is4k r) = true := by
    unfold is4k
    rw [Nat.dvd_iff_mod_eq_zero, Nat.dvd_iff_mod_eq_zero]
    cases c.ptUnaligned <;> simp <;> omega
  rw [h1, h2]

/-- C33. The mode used for a request that the cache must not serve is pass-through. -/
theorem bypass_pt (c : Cache) (r : Req) (cutoff dirtyOk : Bool) (h : Bypass c r cutoff) :
    resolve c r cutoff dirtyOk = (pt, false) := by
  rw [bypass_iff] at h
  unfold resolve
  rcases h with h | h | h | h | h <;> simp only [h, ↓reduceIte, ite_self]

theorem pick_spec (c : Cache) (r : Req) (hk : 0 < c.classMax) : Configured c r (pick c r) := by
  have hcl := class2id_spec c r
  have hlt : class2id c r.ioClass < c.classMax := by
    unfold class2id; split
    · split <;> omega
    · omega
  have hpm : partMode c (class2id c (class2id c r.ioClass)) = c.clsMode (class2id c r.ioClass) := by
    rw [class2id_idem]; unfold partMode; rw [if_pos hlt]
  unfold pick
  dsimp only
  rw [hpm]
  cases hv : isValid (c.clsMode (class2id c r.ioClass)) with
  | true =>
    simp only [Bool.not_true, Bool.false_eq_true, ↓reduceIte]
    unfold isValid at hv
    simp only [Bool.and_eq_true, decide_eq_true_eq] at hv
    exact .ofClass _ hcl hv.1 (by omega)
  | false =>
    simp only [Bool.not_false, ↓reduceIte]
    refine .ofCache _ hcl ?_
    intro hh
    unfold isValid at hv
    rw [Bool.and_eq_false_iff] at hv
    simp only [decide_eq_false_iff_not] at hv
    omega

theorem lazy_iff (m : Int) : hasLazy m = true ↔ m = 1 ∨ m = 5 := by
  unfold hasLazy isValid wb wo
  simp only [Bool.and_eq_true, Bool.or_eq_true, decide_eq_true_eq, beq_iff_eq]
  omega

theorem resolve_open (c : Cache) (r : Req) (cutoff dirtyOk : Bool) (h : ¬ Bypass c r cutoff) :
    resolve c r cutoff dirtyOk =
      if r.write = true ∧ (pick c r = 1 ∨ pick c r = 5) then
        (if dirtyOk then (pick c r, true) else (0, false))
      else (pick c r, false) := by
  rw [bypass_iff] at h
  simp only [not_or] at h
  obtain ⟨h1, h2, h3, h4, h5⟩ := h
  unfold resolve
  rw [if_neg h1, if_neg h2, if_neg h3, if_neg h4, if_neg h5]
  have hl : (r.write && hasLazy (pick c r)) = true ↔
      (r.write = true ∧ (pick c r = 1 ∨ pick c r = 5)) := by
    rw [Bool.and_eq_true, lazy_iff]
  by_cases hw : (r.write && hasLazy (pick c r)) = true
  · rw [if_pos hw, if_pos (hl.1 hw)]; rfl
  · rw [if_neg hw, if_neg (fun x => hw (hl.2 x))]

/-- C33. Otherwise it is the configured mode, except that a write in a lazy mode becomes
write-through when dirty data is not allowed; the request holds a dirty reference exactly if it is
such a write and dirty data is allowed. -/
theorem resolve_exact (c : Cache) (r : Req) (cutoff dirtyOk : Bool) (h : ¬ Bypass c r cutoff)
    (hk : 0 < c.classMax) :
    ∃ m, Configured c r m ∧
      resolve c r cutoff dirtyOk =
        if r.write = true ∧ (m = 1 ∨ m = 5) then (if dirtyOk then (m, true) else (0, false))
        else (m, false) :=
  ⟨pick c r, pick_spec c r hk, resolve_open c r cutoff dirtyOk h⟩

theorem pick_range (c : Cache) (r : Req) (hm : 0 ≤ c.mode ∧ c.mode ≤ 5) :
    0 ≤ pick c r ∧ pick c r ≤ 5 := by
  unfold pick
  dsimp only
  split
  · exact hm
  · rename_i h
    unfold isValid at h
    simp only [Bool.not_eq_true', Bool.and_eq_false_iff, decide_eq_false_iff_not] at h
    omega

theorem resolve_range (c : Cache) (r : Req) (cutoff dirtyOk : Bool)
    (hm : 0 ≤ c.mode ∧ c.mode ≤ 5) :
    0 ≤ (resolve c r cutoff dirtyOk).1 ∧ (resolve c r cutoff dirtyOk).1 ≤ 5 := by
  by_cases hb : Bypass c r cutoff
  · rw [bypass_pt c r cutoff dirtyOk hb]; decide
  · rw [resolve_open c r cutoff dirtyOk hb]
    have := pick_range c r hm
    split
    · split
      · exact this
      · decide
    · exact this

theorem fastMode_cases (c : Cache) (m : Int) : fastMode c m = reqMax ∨ fastMode c m = fast := by
  unfold fastMode; split
  · simp
  · split
    · simp
    · split <;> simp

/-- C33. With a legal configured mode every request gets an engine, and the right one for its mode:
a bypassing read goes to the core, a bypassing write also invalidates. -/
theorem engine_total (c : Cache) (r : Req) (cutoff dirtyOk fastOk : Bool) (hs : c.standby = false)
    (hm : 0 ≤ c.mode ∧ c.mode ≤ 5) :
    ∃ e d, submit c r cutoff dirtyOk fastOk = some (e, d) ∧
      (Bypass c r cutoff → r.d2c = false → e = if r.write then .writeWi else .readPt) ∧
      (r.d2c = true → e = .d2c) := by
  have hval := resolve_range c r cutoff dirtyOk hm
  unfold submit
  rw [hs]
  simp only [Bool.false_eq_true, ↓reduceIte]
  cases hd : r.d2c with
  | true => exact ⟨.d2c, false, by simp, by simp, by simp⟩
  | false =>
    simp only [Bool.false_eq_true, ↓reduceIte, forall_const, false_implies, and_true]
    by_cases hb : Bypass c r cutoff
    · rw [bypass_pt c r cutoff dirtyOk hb]
      cases r.write
      · exact ⟨.readPt, false, rfl, fun _ => rfl⟩
      · exact ⟨.writeWi, false, rfl, fun _ => rfl⟩
    · revert hval
      generalize resolve c r cutoff dirtyOk = m
      intro hval
      have he : ∃ e, engineOf m.1 r.write = some e := by
        have h6 : m.1 = 0 ∨ m.1 = 1 ∨ m.1 = 2 ∨ m.1 = 3 ∨ m.1 = 4 ∨ m.1 = 5 := by omega
        unfold engineOf wt wb wa wi wo pt
        rcases h6 with h | h | h | h | h | h <;> rw [h] <;> simp
      obtain ⟨e, he⟩ := he
      generalize (if m.1 = pt then none
        else if fastMode c m.1 = reqMax then none
        else if fastOk then engineOf (fastMode c m.1) r.write else none) = v
      cases v with
      | some x => exact ⟨x, m.2, rfl, fun x => absurd x hb⟩
      | none => exact ⟨e, m.2, by simp [he], fun x => absurd x hb⟩

/-- C33. A request that does not take the fast path is served by the engine of its mode; one that
does is never in pass-through mode. -/
theorem engine_by_mode (c : Cache) (r : Req) (cutoff dirtyOk fastOk : Bool)
    (hs : c.standby = false) (hd : r.d2c = false) (hm : 0 ≤ c.mode ∧ c.mode ≤ 5) :
    ∃ e d, submit c r cutoff dirtyOk fastOk = some (e, d) ∧
      (Serves (resolve c r cutoff dirtyOk).1 r.write e ∨
        (fastOk = true ∧ (resolve c r cutoff dirtyOk).1 ≠ 3 ∧
          e = if r.write then .writeFast else .readFast)) := by
  have hval := resolve_range c r cutoff dirtyOk hm
  unfold submit
  rw [hs, hd]
  simp only [Bool.false_eq_true, ↓reduceIte]
  revert hval
  generalize resolve c r cutoff dirtyOk = m
  intro hval
  have he : ∃ e, engineOf m.1 r.write = some e ∧ Serves m.1 r.write e := by
    have h6 : m.1 = 0 ∨ m.1 = 1 ∨ m.1 = 2 ∨ m.1 = 3 ∨ m.1 = 4 ∨ m.1 = 5 := by omega
    unfold engineOf wt wb wa wi wo pt
    cases r.write
    · rcases h6 with h | h | h | h | h | h <;> rw [h]
      · exact ⟨_, rfl, .read _ (by decide)⟩
      · exact ⟨_, rfl, .read _ (by decide)⟩
      · exact ⟨_, rfl, .read _ (by decide)⟩
      · exact ⟨_, rfl, .readPass⟩
      · exact ⟨_, rfl, .read _ (by decide)⟩
      · exact ⟨_, rfl, .readWriteOnly⟩
    · rcases h6 with h | h | h | h | h | h <;> rw [h]
      · exact ⟨_, rfl, .through⟩
      · exact ⟨_, rfl, .back _ (by decide)⟩
      · exact ⟨_, rfl, .around⟩
      · exact ⟨_, rfl, .invalidate _ (by decide)⟩
      · exact ⟨_, rfl, .invalidate _ (by decide)⟩
      · exact ⟨_, rfl, .back _ (by decide)⟩
  obtain ⟨e, he, hse⟩ := he
  by_cases hp : m.1 = pt
  · rw [if_pos hp]
    exact ⟨e, m.2, by simp [he], Or.inl hse⟩
  rw [if_neg hp]
  rcases fastMode_cases c m.1 with hf | hf
  · rw [if_pos hf]
    exact ⟨e, m.2, by simp [he], Or.inl hse⟩
  · rw [if_neg (by rw [hf]; decide), hf]
    cases fastOk with
    | false =>
      exact ⟨e, m.2, by simp [he], Or.inl hse⟩
    | true =>
      refine ⟨if r.write then .writeFast else .readFast, m.2, ?_, Or.inr ⟨rfl, hp, rfl⟩⟩
      simp [engineOf, fast, wt, wb, wa, wi, wo, pt]

theorem engineOf_lazy (m : Int) (w : Bool) (e : Engine) (h : engineOf m w = some e)
    (hl : LeavesDirty e) : w = true ∧ (m = 1 ∨ m = 5 ∨ m = 6) := by
  unfold engineOf wt wb wa wi wo pt fast at h
  have aux : ∀ a b : Engine, some (if w then a else b) = some e → ¬ LeavesDirty b →
      (w = true ∧ e = a) := by
    intro a b hab hb
    cases w
    · simp at hab; rw [hab] at hb; exact absurd hl hb
    · simp at hab; exact ⟨rfl, hab.symm⟩
  have nl : ∀ x : Engine, x ≠ .writeWb → x ≠ .writeFast → ¬ LeavesDirty x := by
    intro x h1 h2 h; rcases h with h | h <;> contradiction
  split at h
  · obtain ⟨_, rfl⟩ := aux _ _ h (nl _ (by decide) (by decide))
    exact absurd hl (nl _ (by decide) (by decide))
  split at h
  · exact ⟨(aux _ _ h (nl _ (by decide) (by decide))).1, by omega⟩
  split at h
  · obtain ⟨_, rfl⟩ := aux _ _ h (nl _ (by decide) (by decide))
    exact absurd hl (nl _ (by decide) (by decide))
  split at h
  · obtain ⟨_, rfl⟩ := aux _ _ h (nl _ (by decide) (by decide))
    exact absurd hl (nl _ (by decide) (by decide))
  split at h
  · exact ⟨(aux _ _ h (nl _ (by decide) (by decide))).1, by omega⟩
  split at h
  · obtain ⟨_, rfl⟩ := aux _ _ h (nl _ (by decide) (by decide))
    exact absurd hl (nl _ (by decide) (by decide))
  split at h
  · exact ⟨(aux _ _ h (nl _ (by decide) (by decide))).1, by omega⟩
  · cases h

/-- C33, for caches without `use_submit_io_fast` (the default). A request is served by an engine
that leaves dirty data only if it is a write for which a lazy mode is configured and that holds a
dirty reference. Missing: the same with `use_submit_io_fast`, which is false, see
`fast_path_ignores_mode`. -/
theorem dirty_only_if_allowed_partial (c : Cache) (r : Req) (cutoff dirtyOk fastOk : Bool)
    (hf : c.useFast = false) (hm : 0 ≤ c.mode ∧ c.mode ≤ 5) (e : Engine) (d : Bool)
    (h : submit c r cutoff dirtyOk fastOk = some (e, d)) (hl : LeavesDirty e) :
    d = true ∧ dirtyOk = true ∧ r.write = true ∧ ¬ Bypass c r cutoff := by
  unfold submit at h
  split at h
  · cases h
  split at h
  · cases h; rcases hl with hl | hl <;> cases hl
  dsimp only at h
  have hval := resolve_range c r cutoff dirtyOk hm
  -- served by a lazy engine, so the mode is lazy and the request a write
  have hmode : r.write = true ∧
      ((resolve c r cutoff dirtyOk).1 = 1 ∨ (resolve c r cutoff dirtyOk).1 = 5) ∧
      d = (resolve c r cutoff dirtyOk).2 := by
    revert h hval
    generalize resolve c r cutoff dirtyOk = m
    intro h hval
    have hfm : fastMode c m.1 = reqMax ∨ (m.1 = 1 ∨ m.1 = 5) := by
      unfold fastMode wb wo
      rw [hf]
      split
      · right; omega
      split
      · right; omega
      · left; rfl
    split at h
    · rename_i x hx
      cases h
      split at hx
      · cases hx
      split at hx
      · cases hx
      split at hx
      · rename_i h1 _
        exact ⟨(engineOf_lazy _ _ _ hx hl).1, hfm.resolve_left h1, rfl⟩
      · cases hx
    · rename_i hx
      cases he : engineOf m.1 r.write with
      | none => rw [he] at h; cases h
      | some x =>
        rw [he] at h
        cases h
        have := engineOf_lazy _ _ _ he hl
        exact ⟨this.1, by omega, rfl⟩
  obtain ⟨hw, hmm, hd⟩ := hmode
  have hnb : ¬ Bypass c r cutoff := by
    intro hb
    rw [bypass_pt c r cutoff dirtyOk hb] at hmm
    exact absurd hmm (by decide)
  rw [resolve_open c r cutoff dirtyOk hnb] at hmm hd
  split at hmm
  · rename_i hc
    rw [if_pos hc] at hd
    cases dirtyOk with
    | true => exact ⟨hd, rfl, hw, hnb⟩
    | false => simp at hmm
  · rename_i hc
    exact absurd ⟨hw, hmm⟩ hc

/-- With `use_submit_io_fast` set, a write to mapped lines of a write-through cache is served by the
write-back code: it leaves dirty data although the mode forbids it and although dirty data is not
allowed at the moment. -/
theorem fast_path_ignores_mode : ∃ (c : Cache) (r : Req), c.mode = 0 ∧ (∀ k, c.clsMode k = -1) ∧
    c.standby = false ∧ ¬ Bypass c r false ∧
    ∃ e d, submit c r false false true = some (e, d) ∧ LeavesDirty e ∧ d = false := by
  refine ⟨⟨0, 0, false, false, 100, 0, 33, fun k => k == 0, fun _ => -1, true, false⟩,
    ⟨4096, 4096, true, 0, 1, false⟩, rfl, fun _ => rfl, rfl, ?_, .writeFast, false, ?_, Or.inr rfl,
    rfl⟩
  · rw [bypass_iff]; decide
  · decide

/-- Error fallback: while the threshold stays the same, more errors never turn it off. -/
theorem fallback_sticky (c : Cache) (h : fallbackOn c = true) : fallbackOn (incError c) = true := by
  unfold incError
  split
  · exact h
  · rename_i h0
    unfold fallbackOn at h ⊢
    rw [if_neg h0] at h
    rw [if_neg (show ¬ ({ c with errors := c.errors + 1 } : Cache).threshold = 0 from h0)]
    simp only [decide_eq_true_eq] at h ⊢
    omega

/-- Setting the mode either takes effect or leaves the cache as it was, and the configured mode
stays legal. -/
theorem setMode_legal (c : Cache) (m : Int) (hm : 0 ≤ c.mode ∧ c.mode ≤ 5) :
    ((setMode c m).2 = true → (setMode c m).1.mode = m) ∧
    ((setMode c m).2 = false → (setMode c m).1 = c) ∧
    ((setMode c m).2 = true ↔ c.standby = false ∧ 0 ≤ m ∧ m ≤ 5) ∧
    (0 ≤ (setMode c m).1.mode ∧ (setMode c m).1.mode ≤ 5) := by
  unfold setMode isValid
  cases hs : c.standby with
  | true => simp [hm]
  | false =>
    by_cases h : 0 ≤ m ∧ m < 6
    · have h' : (!(decide (0 ≤ m) && decide (m < 6))) = false := by simp [h.1, h.2]
      rw [if_neg (by simp), if_neg (by simp [h'])]
      exact ⟨fun _ => rfl, fun x => absurd x (by simp), ⟨fun _ => ⟨rfl, h.1, by omega⟩, fun _ => rfl⟩,
        h.1, Int.le_of_lt_add_one h.2⟩
    · have h' : (!(decide (0 ≤ m) && decide (m < 6))) = true := by
        simp only [Bool.not_eq_true', Bool.and_eq_false_iff, decide_eq_false_iff_not]; omega
      simp only [h', Bool.false_eq_true, ↓reduceIte, false_implies, forall_const, true_and]
      refine ⟨⟨fun x => absurd x (by simp), fun x => absurd ⟨x.1, by omega⟩ h⟩, hm⟩

/-! ## Concrete cases -/

/-- A write-back cache with class 3 set to write-around and class 5 removed. -/
def ex : Cache :=
  { threshold := 10, errors := 9, attachPt := false, ptUnaligned := true, lines := 100, mode := 1,
    classMax := 33, clsValid := fun k => k == 0 || k == 3,
    clsMode := fun k => if k = 3 then 2 else if k = 5 then 4 else 6, useFast := false,
    standby := false }

example : submit ex ⟨8192, 4096, true, 3, 1, false⟩ false true true = some (.writeWa, false) ∧
    submit ex ⟨8192, 4096, true, 5, 1, false⟩ false true true = some (.writeFast, true) ∧
    submit ex ⟨8192, 4096, true, 5, 1, false⟩ false true false = some (.writeWb, true) ∧
    submit ex ⟨8192, 4096, true, 0, 1, false⟩ false false true = some (.writeWt, false) ∧
    submit ex ⟨8192, 512, true, 0, 1, false⟩ false true true = some (.writeWi, false) ∧
    submit ex ⟨0, 4096, false, 0, 1, false⟩ true true true = some (.readPt, false) ∧
    submit (incError ex) ⟨0, 4096, false, 3, 1, false⟩ false true true = some (.readPt, false) ∧
    submit ex ⟨0, 4096, false, 3, 1, false⟩ false true true = some (.readGeneric, false) := by
  decide

end Verif.Mode
