import Verif.Lemma.Volume

/-! C58: the life of volumes. -/

namespace Verif.Volume

/-- The place has a volume that can be used: initialised, not moved away. -/
def Usable (s : St) (k : Nat) (v : V) : Prop := s.vols k = some v ∧ v.typ = true

/-! ## Memory -/

/-- **What is allocated is what volumes have**: each allocation is the private part or the copied uuid of one
volume. Nothing is lost, whatever fails. -/
theorem memory_exact (l : List Op) (a : Nat) :
    (a ∈ (run l).live ↔ ∃ k v, (run l).vols k = some v ∧ (v.priv = some a ∨ v.data = .copy a)) ∧
    (∀ k k' v v', (run l).vols k = some v → (run l).vols k' = some v' →
      (v.priv = some a ∨ v.data = .copy a) → (v'.priv = some a ∨ v'.data = .copy a) → k = k') :=
  ⟨(inv_run l).own a, fun k k' v v' => (inv_run l).inj k k' v v' a⟩

/-- **With no volume left nothing is allocated.** -/
theorem nothing_left {l : List Op} (h : ∀ k, (run l).vols k = none) : (run l).live = [] := by
  cases hl : (run l).live with
  | nil => rfl
  | cons a m =>
    obtain ⟨k, v, hv, _⟩ := ((inv_run l).own a).mp (by rw [hl]; exact List.mem_cons_self ..)
    rw [h k] at hv
    cases hv

/-- **Only what is allocated is freed**, if no uuid was replaced. -/
theorem frees_allocated_partial (l : List Op) (h : (run l).renamed = false) : (run l).bad = false :=
  (inv_run l).bad h

/-- **The uuid of a volume is nothing, its own copy, or the metadata's**, if no uuid was replaced. -/
theorem uuid_memory_partial {l : List Op} {k : Nat} {v : V} (hv : (run l).vols k = some v)
    (h : (run l).renamed = false) :
    v.data = .null ∨ (∃ a, v.data = .copy a ∧ v.own = true ∧ a ∈ (run l).live) ∨ (v.data = .md ∧ v.own = false) := by
  have i := inv_run l
  have hl := i.loc k v hv
  cases hd : v.data with
  | null => exact Or.inl rfl
  | copy a => exact Or.inr (Or.inl ⟨a, rfl, hl.dc a hd, (i.own a).mpr ⟨k, v, hv, Or.inr hd⟩⟩)
  | md => exact Or.inr (Or.inr ⟨rfl, hl.dm hd⟩)
  | user => have := hl.du hd; rw [h] at this; cases this

/-! ## Initialising -/

/-- **An initialisation succeeds exactly if** its calls do: a copy is needed only of a uuid to be copied,
`on_init` is called only with a uuid. -/
theorem init_ok_iff (s : St) (k : Nat) (u : Uuid) (i : In) :
    (init s k u i).2 = true ↔ i.priv = true ∧ i.rc = true ∧ (u = .copied → i.text = true) ∧
      (u ≠ .no → i.hook = true) := by
  obtain ⟨p, r, t, q⟩ := i
  cases p <;> cases r <;> cases u <;> cases t <;> cases q <;> simp [init]

/-- **One that fails leaves volumes, memory and hooks as they were.** -/
theorem init_fails {s : St} {k : Nat} {u : Uuid} {i : In} (h : (init s k u i).2 = false) :
    (init s k u i).1.vols = s.vols ∧ (init s k u i).1.live = s.live ∧ (init s k u i).1.hooks = s.hooks ∧
    (init s k u i).1.bad = s.bad := by
  obtain ⟨n, e⟩ := init_false h
  rw [e]
  exact ⟨rfl, rfl, rfl, rfl⟩

/-- **One that succeeds gives a closed volume** that takes no I/O yet, at its place only. -/
theorem init_does {s : St} {k : Nat} {u : Uuid} {i : In} (h : (init s k u i).2 = true) :
    ∃ v, Usable (init s k u i).1 k v ∧ v.opened = false ∧ v.cnt = 0 ∧ 0 < v.frz ∧
    (∀ j, j ≠ k → (init s k u i).1.vols j = s.vols j) := by
  obtain ⟨v, e, hf, ht, _⟩ := init_true h
  refine ⟨v, ⟨by rw [e, upd_same], ht⟩, hf.op, hf.ct, by rw [hf.fz]; omega, fun j hj => ?_⟩
  rw [e, upd_other _ _ hj]

/-! ## Opening, closing, I/O -/

/-- **I/O is only on open volumes.** -/
theorem io_open {l : List Op} {k : Nat} {v : V} (hv : (run l).vols k = some v) (hc : v.cnt ≠ 0) :
    v.opened = true := (((inv_run l).loc k v hv).ct hc).1

/-- **I/O is taken exactly by volumes that are open and not being closed**, if the volume was not moved to its
place while open. -/
theorem io_accepted_partial {l : List Op} {k : Nat} {v : V} (hv : Usable (run l) k v) (hs : v.stuck = false) :
    (ioNew (run l) k v true).2 = true ↔ v.opened = true ∧ v.closing = false := by
  have hz := ((inv_run l).loc k v hv.1).fz hv.2
  rw [hs] at hz
  unfold ioNew
  cases ho : v.opened <;> cases hc : v.closing <;> rw [ho, hc] at hz <;> simp [base, bn] at hz <;> simp [hz]

/-- In any case a volume that is closed or being closed takes none. -/
theorem io_refused {l : List Op} {k : Nat} {v : V} (hv : Usable (run l) k v)
    (h : v.opened = false ∨ v.closing = true) (ok : Bool) : (ioNew (run l) k v ok).2 = false := by
  have hz := ((inv_run l).loc k v hv.1).fz hv.2
  unfold ioNew
  rw [if_pos]
  rcases h with h | h
  · rw [h] at hz; cases hc : v.closing <;> rw [hc] at hz <;> simp [base] at hz <;> omega
  · rw [h] at hz; cases hc : v.opened <;> rw [hc] at hz <;> simp [base] at hz <;> omega

/-- **An open succeeds exactly if** the volume is closed and its type opens it; no assertion fails. -/
theorem open_ok_iff {l : List Op} {k : Nat} {v : V} (hv : Usable (run l) k v) (ok : Bool) :
    ((openV (run l) k v ok).2 = true ↔ v.opened = false ∧ ok = true) ∧
    (openV (run l) k v ok).1.bug = (run l).bug ∧
    ((openV (run l) k v ok).2 = false → (openV (run l) k v ok).1 = run l) := by
  have i := inv_run l
  have ho := i.openV hv.1 hv.2 ok
  have hz := (i.loc k v hv.1).fz hv.2
  refine ⟨?_, ho.2.1, ?_⟩
  · unfold openV
    cases h1 : v.opened
    · rw [h1] at hz
      have : v.frz ≠ 0 := by
        cases hc : v.closing <;> rw [hc] at hz <;> simp [base] at hz <;> omega
      cases ok <;> simp [this]
    · simp
  · unfold openV
    split
    · exact fun _ => rfl
    · rename_i h1
      split
      · exact fun _ => rfl
      · have h1 : v.opened = false := by simpa using h1
        rw [h1] at hz
        have : v.frz ≠ 0 := by
          cases hc : v.closing <;> rw [hc] at hz <;> simp [base] at hz <;> omega
        rw [if_neg this]
        intro x; cases x

/-- **A close ends exactly when the last I/O is put**, and then the volume is closed without I/O. -/
theorem close_waits (s : St) (k : Nat) {v : V} (hc : v.closing = true) :
    (v.cnt ≠ 0 → closeEnd s k v = s) ∧
    (v.cnt = 0 → ∃ v', (closeEnd s k v).vols k = some v' ∧ v'.opened = false ∧ v'.closing = false ∧
      v'.cnt = 0) := by
  unfold closeEnd
  refine ⟨fun h => by rw [if_neg (by simp [h])], fun h => ?_⟩
  rw [if_pos (by simp [hc, h])]
  exact ⟨_, upd_same .., rfl, rfl, h⟩

/-- **A close does end**: from any state, once the I/O there is has been put. -/
theorem close_ends : ∀ (n : Nat) {l : List Op} {k : Nat} {v : V}, (run l).vols k = some v → (run l).bug = false →
    v.closing = true → v.cnt = n → ∃ v', (run (l ++ List.replicate n (.ioPut k) ++ [.closeEnd k])).vols k = some v' ∧
      v'.opened = false ∧ v'.closing = false := by
  intro n
  induction n with
  | zero =>
    intro l k v hv hb hc hn
    obtain ⟨v', h1, h2, h3, _⟩ := (close_waits (run l) k hc).2 hn
    refine ⟨v', ?_, h2, h3⟩
    simp only [List.replicate_zero, List.append_nil]
    rw [run_snoc]
    unfold step
    simp only [hb, Bool.false_eq_true, if_false, hv]
    exact h1
  | succ n ih =>
    intro l k v hv hb hc hn
    have e : run (l ++ [.ioPut k]) = { run l with vols := upd (run l).vols k (some { v with cnt := v.cnt - 1 }) } := by
      rw [run_snoc]
      unfold step
      rw [if_neg (by rw [hb]; simp)]
      simp only [hv]
      unfold ioPut
      rw [if_neg (by omega : ¬ v.cnt = 0)]
    have := ih (l := l ++ [.ioPut k]) (k := k) (v := { v with cnt := v.cnt - 1 })
      (by rw [e]; exact upd_same ..) (by rw [e]; exact hb) hc (by show v.cnt - 1 = n; omega)
    rw [List.replicate_succ]
    simpa using this

/-! ## Assertions and hooks -/

/-- What a load from the pool does, once its volume is initialised and no I/O is on the pool's. -/
theorem load_eq {s : St} {k j : Nat} {w : V} {i : In} (hk : s.vols k = none) (hw : s.vols j = some w)
    (hb : s.bug = false) (hr : (init s k .kept i).2 = true) (hc : w.cnt = 0) :
    (∃ v, (load s k j i).vols k = some v ∧ v.typ = w.typ ∧ v.opened = w.opened ∧ v.priv = w.priv ∧
      v.data = w.data ∧ v.own = w.own ∧ v.stuck = w.opened) ∧ (load s k j i).vols j = none ∧
    (load s k j i).bug = false ∧ (load s k j i).unclosed = s.unclosed ∧ (load s k j i).lost = true := by
  have hkj : k ≠ j := fun e => by rw [e, hw] at hk; cases hk
  obtain ⟨v, e1, hf, _, e2, e3, e4, e5, e6⟩ := init_true hr
  have hv : (init s k .kept i).1.vols k = some v := by rw [e1, upd_same]
  have hw' : (init s k .kept i).1.vols j = some w := by rw [e1, upd_other _ _ (Ne.symm hkj)]; exact hw
  have hm := move_ok (s := (init s k .kept i).1) hkj hf.ct hc
  have hfl := move_flags (s := (init s k .kept i).1) (k := k) (j := j) (v := v) (w := w)
  have hlo := move_lost (s := (init s k .kept i).1) (k := k) (j := j) hf.ct hc
  have hnb : (move (init s k .kept i).1 k j v w).bug = false := by
    cases hx : (move (init s k .kept i).1 k j v w).bug
    · rfl
    · rcases hfl.2.2.mp hx with x | x | x
      · rw [e2, hb] at x; cases x
      · exact absurd hf.ct x
      · exact absurd hc x
  unfold load
  simp only [hr, Bool.not_true, Bool.false_eq_true, if_false, hv, hw', hnb, hm.2.1]
  have hd := deinit_flags (move (init s k .kept i).1 k j v w) j
    { w with opened := false, priv := none, data := .null, typ := false }
  refine ⟨⟨{ v with opened := w.opened, typ := w.typ, data := w.data, own := w.own, priv := w.priv, anon := w.anon,
                     stuck := w.opened }, by rw [hd.1, upd_other _ _ hkj, hm.1], rfl, rfl, rfl, rfl, rfl, rfl⟩, by rw [hd.1, upd_same], ?_, ?_, ?_⟩
  · rw [hd.2.1]; exact hnb
  · rw [hd.2.2.1, hfl.1, e4]; simp
  · rw [hd.2.2.2, hlo, e3]
    have : due (init s k .kept i).1.hooks (some s.next) = true := decide_eq_true (e6.mpr (Or.inl (by simp)))
    rw [this]; simp

/-- What an attach does, once its volume is initialised and no I/O is on the user's. -/
theorem attach_eq {s : St} {k j : Nat} {w : V} {i : In} {ok : Bool} (hk : s.vols k = none)
    (hw : s.vols j = some w) (ht : w.typ = true) (hb : s.bug = false)
    (hr : (init s k .no i).2 = true) (hc : w.cnt = 0) :
    ((attach s k j i ok).2 = true ↔ w.opened = false ∧ ok = true) ∧ (attach s k j i ok).1.bug = false ∧
    (∃ w', (attach s k j i ok).1.vols j = some w' ∧ w'.typ = false ∧ w'.priv = none ∧ w'.data = .null) ∧
    ((attach s k j i ok).2 = true → ∃ v, (attach s k j i ok).1.vols k = some v ∧ v.typ = true ∧ v.opened = true ∧
      v.priv = w.priv ∧ v.data = w.data ∧ v.frz = 0 ∧ (attach s k j i ok).1.unclosed = s.unclosed) ∧
    ((attach s k j i ok).2 = false → (attach s k j i ok).1.vols k = none ∧
      (attach s k j i ok).1.unclosed = (s.unclosed || w.opened)) := by
  have hkj : k ≠ j := fun e => by rw [e, hw] at hk; cases hk
  obtain ⟨v, e1, hf, _, e2, e3, e4, e5, e6⟩ := init_true hr
  have hv : (init s k .no i).1.vols k = some v := by rw [e1, upd_same]
  have hw' : (init s k .no i).1.vols j = some w := by rw [e1, upd_other _ _ (Ne.symm hkj)]; exact hw
  have hm := move_ok (s := (init s k .no i).1) hkj hf.ct hc
  have hfl := move_flags (s := (init s k .no i).1) (k := k) (j := j) (v := v) (w := w)
  have hnb : (move (init s k .no i).1 k j v w).bug = false := by
    cases hx : (move (init s k .no i).1 k j v w).bug
    · rfl
    · rcases hfl.2.2.mp hx with x | x | x
      · rw [e2, hb] at x; cases x
      · exact absurd hf.ct x
      · exact absurd hc x
  have hun : (move (init s k .no i).1 k j v w).unclosed = s.unclosed := by rw [hfl.1, e4]
  unfold attach
  simp only [hr, Bool.not_true, Bool.false_eq_true, if_false, hv, hw', hnb, hm.1]
  generalize move (init s k .no i).1 k j v w = t at *
  unfold openV
  simp only
  cases ho : w.opened
  · cases ok
    · have hd := deinit_flags t k { v with opened := false, typ := w.typ, data := w.data, own := w.own, priv := w.priv
                                           anon := w.anon, stuck := false }
      simp only [hm.1, ho, Bool.not_false, Bool.false_eq_true, if_false, if_true]
      refine ⟨by simp, by rw [hd.2.1]; exact hnb, ⟨_, by rw [hd.1, upd_other _ _ (Ne.symm hkj)]; exact hm.2.1, rfl, rfl,
        rfl⟩, fun x => (by cases x), fun _ => ⟨by rw [hd.1, upd_same], by rw [hd.2.2.1, hun]⟩⟩
    · simp only [hf.fz, Bool.not_true, Bool.false_eq_true, if_false, if_true, Nat.one_ne_zero]
      exact ⟨by simp, hnb, ⟨_, by rw [upd_other _ _ (Ne.symm hkj)]; exact hm.2.1, rfl, rfl, rfl⟩,
        fun _ => ⟨_, upd_same .., ht, rfl, rfl, rfl, rfl, hun⟩, fun x => (by cases x)⟩
  · have hd := deinit_flags t k { v with opened := true, typ := w.typ, data := w.data, own := w.own, priv := w.priv
                                         anon := w.anon, stuck := true }
    simp only [hm.1, ho, Bool.false_eq_true, if_false, if_true]
    refine ⟨by simp, by rw [hd.2.1]; exact hnb, ⟨_, by rw [hd.1, upd_other _ _ (Ne.symm hkj)]; exact hm.2.1, rfl, rfl,
        rfl⟩, fun x => (by cases x), fun _ => ⟨by rw [hd.1, upd_same], by rw [hd.2.2.1, hun]⟩⟩

/-- **A core loaded from the pool has the pool's volume**, the pool has it no more. -/
theorem load_does {l : List Op} {k j : Nat} {w : V} {i : In} (hk : (run l).vols k = none) (hw : Usable (run l) j w)
    (hb : (run l).bug = false) (hr : (init (run l) k .kept i).2 = true) (hc : w.cnt = 0) :
    (∃ v, (load (run l) k j i).vols k = some v ∧ v.typ = true ∧ v.opened = w.opened ∧ v.priv = w.priv ∧
      v.data = w.data) ∧ (load (run l) k j i).vols j = none ∧ (load (run l) k j i).bug = false ∧
    (load (run l) k j i).unclosed = (run l).unclosed := by
  obtain ⟨⟨v, h1, h2, h3, h4, h5, _⟩, h6, h7, h8, _⟩ := load_eq hk hw.1 hb hr hc
  exact ⟨⟨v, h1, by rw [h2]; exact hw.2, h3, h4, h5⟩, h6, h7, h8⟩

/-- **An attach opens the user's volume for the cache**; the user's handle is empty afterwards, whatever the
outcome, and can only be destroyed. -/
theorem attach_does {l : List Op} {k j : Nat} {w : V} {i : In} {ok : Bool} (hk : (run l).vols k = none)
    (hw : Usable (run l) j w) (hb : (run l).bug = false)
    (hr : (init (run l) k .no i).2 = true) (hc : w.cnt = 0) :
    ((attach (run l) k j i ok).2 = true ↔ w.opened = false ∧ ok = true) ∧
    (∃ w', (attach (run l) k j i ok).1.vols j = some w' ∧ w'.typ = false ∧ w'.priv = none ∧ w'.data = .null) ∧
    ((attach (run l) k j i ok).2 = true → ∃ v, (attach (run l) k j i ok).1.vols k = some v ∧ v.opened = true ∧
      v.priv = w.priv ∧ v.data = w.data ∧ v.frz = 0) ∧
    ((attach (run l) k j i ok).2 = false → (attach (run l) k j i ok).1.vols k = none) := by
  obtain ⟨h1, _, h3, h4, h5⟩ := attach_eq (ok := ok) hk hw.1 hw.2 hb hr hc
  refine ⟨h1, h3, fun x => ?_, fun x => (h5 x).1⟩
  obtain ⟨v, a, _, b, c, d, e, _⟩ := h4 x
  exact ⟨v, a, b, c, d, e⟩

/-- What one call does to the two flags. -/
theorem flags_step {l : List Op} {o : Op} (h : (run l).bug = false) :
    ((run (l ++ [o])).bug = true →
      ∃ k j i w, (o = .load k j i ∨ ∃ ok, o = .attach k j i ok) ∧ (run l).vols j = some w ∧ w.cnt ≠ 0) ∧
    ((run (l ++ [o])).unclosed = true → (run l).unclosed = true ∨
      ∃ k j i ok w, o = .attach k j i ok ∧ (run l).vols j = some w ∧ w.opened = true) := by
  have hI := inv_run l
  rw [run_snoc]
  generalize run l = s at *
  have same : ∀ t : St, t.bug = s.bug → t.unclosed = s.unclosed →
      (t.bug = true → ∃ k j i w, (o = .load k j i ∨ ∃ ok, o = .attach k j i ok) ∧ s.vols j = some w ∧ w.cnt ≠ 0) ∧
      (t.unclosed = true → s.unclosed = true ∨
        ∃ k j i ok w, o = .attach k j i ok ∧ s.vols j = some w ∧ w.opened = true) := by
    intro t h1 h2
    exact ⟨fun x => (by rw [h1, h] at x; cases x), fun x => Or.inl (by rw [← h2]; exact x)⟩
  unfold step
  rw [h]
  simp only [Bool.false_eq_true, if_false]
  cases o with
  | create k u i =>
    simp only
    split
    · cases hr : (init s k u i).2
      · obtain ⟨n, e⟩ := init_false hr
        rw [e]; exact same _ rfl rfl
      · obtain ⟨v, _, _, _, e1, _, e2, _⟩ := init_true hr
        exact same _ e1 e2
    · exact same _ rfl rfl
  | destroy k =>
    simp only
    split
    · rename_i v hv
      split
      · exact same _ rfl rfl
      · rename_i hn
        simp only [Bool.or_eq_true, not_or, Bool.not_eq_true] at hn
        have := deinit_flags s k v
        refine same _ this.2.1 ?_
        rw [this.2.2.1, hn.1]; simp
    · exact same _ rfl rfl
  | setUuid k =>
    simp only
    split
    · split
      · rename_i v hv _
        have hf : (freeUuid s v).bug = s.bug ∧ (freeUuid s v).unclosed = s.unclosed := by
          unfold freeUuid
          split
          · split
            · exact ⟨rfl, rfl⟩
            · unfold free; split <;> exact ⟨rfl, rfl⟩
            · exact ⟨rfl, rfl⟩
            · exact ⟨rfl, rfl⟩
          · exact ⟨rfl, rfl⟩
        exact same _ hf.1 hf.2
      · exact same _ rfl rfl
    · exact same _ rfl rfl
  | openV k ok =>
    simp only
    split
    · rename_i v hv
      split
      · rename_i ht
        have := hI.openV hv ht ok
        exact same _ this.2.1 this.2.2.1
      · exact same _ rfl rfl
    · exact same _ rfl rfl
  | closeStart k =>
    simp only
    split
    · split
      · unfold closeStart; split <;> exact same _ rfl rfl
      · exact same _ rfl rfl
    · exact same _ rfl rfl
  | closeEnd k =>
    simp only
    split
    · unfold closeEnd; split <;> exact same _ rfl rfl
    · exact same _ rfl rfl
  | ioNew k ok =>
    simp only
    split
    · split
      · unfold ioNew
        split
        · exact same _ rfl rfl
        · split <;> exact same _ rfl rfl
      · exact same _ rfl rfl
    · exact same _ rfl rfl
  | ioPut k =>
    simp only
    split
    · unfold ioPut; split <;> exact same _ rfl rfl
    · exact same _ rfl rfl
  | load k j i =>
    simp only
    split
    · rename_i w hk hw
      split
      · rename_i ht
        by_cases hc : w.cnt = 0
        · cases hr : (init s k .kept i).2
          · obtain ⟨n, e⟩ := init_false hr
            unfold load
            simp only [hr, Bool.not_false, if_true]
            rw [e]; exact same _ rfl rfl
          · have := load_eq hk hw h hr hc
            exact same _ (by rw [this.2.2.1, h]) this.2.2.2.1
        · refine ⟨fun _ => ⟨k, j, i, w, Or.inl rfl, hw, hc⟩, fun x => ?_⟩
          have hkj : k ≠ j := fun e => by rw [e, hw] at hk; cases hk
          refine Or.inl ?_
          unfold load at x
          cases hr : (init s k .kept i).2
          · obtain ⟨n, e⟩ := init_false hr
            simp only [hr, Bool.not_false, if_true] at x
            rw [e] at x; exact x
          · obtain ⟨v, e1, hf, _, e2, e3, e4, e5, e6⟩ := init_true hr
            have hv : (init s k .kept i).1.vols k = some v := by rw [e1, upd_same]
            have hw' : (init s k .kept i).1.vols j = some w := by rw [e1, upd_other _ _ (Ne.symm hkj)]; exact hw
            have hfl := move_flags (s := (init s k .kept i).1) (k := k) (j := j) (v := v) (w := w)
            simp only [hr, Bool.not_true, Bool.false_eq_true, if_false, hv, hw',
              hfl.2.2.mpr (Or.inr (Or.inr hc)), if_true] at x
            rw [hfl.1, e4] at x
            exact x
      · exact same _ rfl rfl
    · exact same _ rfl rfl
  | attach k j i ok =>
    simp only
    split
    · rename_i w hk hw
      split
      · rename_i ht
        simp only [Bool.and_eq_true, Bool.not_eq_true'] at ht
        by_cases hc : w.cnt = 0
        · cases hr : (init s k .no i).2
          · obtain ⟨n, e⟩ := init_false hr
            unfold attach
            simp only [hr, Bool.not_false, if_true]
            rw [e]; exact same _ rfl rfl
          · have := attach_eq (ok := ok) hk hw ht.1 h hr hc
            refine ⟨fun x => (by rw [this.2.1] at x; cases x), fun x => ?_⟩
            cases hx : (attach s k j i ok).2
            · rw [(this.2.2.2.2 hx).2] at x
              cases ho : w.opened
              · rw [ho] at x; simp at x; exact Or.inl x
              · exact Or.inr ⟨k, j, i, ok, w, rfl, hw, ho⟩
            · obtain ⟨_, _, _, _, _, _, _, y⟩ := this.2.2.2.1 hx
              exact Or.inl (by rw [← y]; exact x)
        · refine ⟨fun _ => ⟨k, j, i, w, Or.inr ⟨ok, rfl⟩, hw, hc⟩, fun x => ?_⟩
          have ho := ((hI.loc j w hw).ct hc).1
          exact Or.inr ⟨k, j, i, ok, w, rfl, hw, ho⟩
      · exact same _ rfl rfl
    · exact same _ rfl rfl

/-- **An assertion fails only if** a volume with I/O on it is taken from the pool or handed over to attach. -/
theorem no_bug_partial {l : List Op} {o : Op} (h : (run l).bug = false) (hb : (run (l ++ [o])).bug = true) :
    ∃ k j i w, (o = .load k j i ∨ ∃ ok, o = .attach k j i ok) ∧ (run l).vols j = some w ∧ w.cnt ≠ 0 :=
  (flags_step h).1 hb

/-- **A volume is deinitialised open only if** an open one was handed over to attach. -/
theorem closed_first_partial {l : List Op} {o : Op} (h : (run l).bug = false) (hu : (run l).unclosed = false)
    (hb : (run (l ++ [o])).unclosed = true) :
    ∃ k j i ok w, o = .attach k j i ok ∧ (run l).vols j = some w ∧ w.opened = true :=
  ((flags_step h).2 hb).elim (fun x => (by rw [hu] at x; cases x)) id

/-- **`on_init` has run on the private part of a volume exactly if it was initialised with a uuid.** -/
theorem hook_iff {l : List Op} {k : Nat} {v : V} (hv : Usable (run l) k v) :
    ∃ a, v.priv = some a ∧ (a ∈ (run l).hooks ↔ v.anon = false) := ((inv_run l).loc k v hv.1).t1 hv.2

/-- **Deinitialising a volume made with a uuid runs its `on_deinit` once.** -/
theorem deinit_hook {l : List Op} {k : Nat} {v : V} (hv : Usable (run l) k v) (ha : v.anon = false) :
    ∃ a, v.priv = some a ∧ a ∈ (run l).hooks ∧ a ∉ (onDeinit (run l) v).hooks ∧
    (onDeinit (run l) v).extra = (run l).extra := by
  obtain ⟨a, h1, h2⟩ := hook_iff hv
  have h3 := h2.mpr ha
  refine ⟨a, h1, h3, ?_, ?_⟩
  · unfold onDeinit
    rw [if_pos hv.2, h1]
    simp only [h3, if_true]
    rw [(inv_run l).hnd.mem_erase_iff]
    exact fun x => x.1 rfl
  · unfold onDeinit
    rw [if_pos hv.2, h1]
    simp only [h3, if_true]

/-! ## Composite volumes -/

/-- Adding members one after another. -/
def adds (l : List (M × Bool)) : Comp := l.foldl (fun c p => (add c p.1 p.2).1) ⟨[], [], 0, 0⟩

/-- **Never more than 16 members, all closed before the first open.** -/
theorem members_max (l : List (M × Bool)) : (adds l).mem.length ≤ 16 ∧ ∀ m ∈ (adds l).mem, m.opened = false := by
  suffices ∀ c : Comp, (c.mem.length ≤ 16 ∧ ∀ m ∈ c.mem, m.opened = false) →
      ((l.foldl (fun c p => (add c p.1 p.2).1) c).mem.length ≤ 16 ∧
       ∀ m ∈ (l.foldl (fun c p => (add c p.1 p.2).1) c).mem, m.opened = false) from
    this _ ⟨by simp, by simp⟩
  induction l with
  | nil => exact fun c h => h
  | cons p l ih =>
    intro c h
    refine ih _ ?_
    show (add c p.1 p.2).1.mem.length ≤ 16 ∧ ∀ m ∈ (add c p.1 p.2).1.mem, m.opened = false
    unfold add
    split
    · exact h
    · rename_i hn
      split
      · exact h
      · refine ⟨by simp; omega, fun m hm => ?_⟩
        rcases List.mem_append.mp hm with hm | hm
        · exact h.2 m hm
        · rw [List.mem_singleton.mp hm]

/-- **A member is added exactly if** there is room and it can be initialised, and goes last. -/
theorem add_iff (c : Comp) (m : M) (ok : Bool) : ((add c m ok).2 = true ↔ c.mem.length < 16 ∧ ok = true) ∧
    ((add c m ok).2 = true → (add c m ok).1.mem = c.mem ++ [{ m with opened := false }]) ∧
    ((add c m ok).2 = false → (add c m ok).1 = c) := by
  unfold add
  by_cases h : c.mem.length ≥ 16
  · rw [if_pos h]
    exact ⟨⟨fun x => (by cases x), fun x => (by omega)⟩, fun x => (by cases x), fun _ => rfl⟩
  · rw [if_neg h]
    cases ok
    · exact ⟨⟨fun x => (by cases x), fun x => (by cases x.2)⟩, fun x => (by cases x), fun _ => rfl⟩
    · exact ⟨⟨fun _ => ⟨by omega, rfl⟩, fun _ => rfl⟩, fun _ => rfl, fun x => (by cases x)⟩

/-- Total length of members. -/
def total (l : List M) : Nat := (l.map (·.len)).sum

theorem openLoop_spec : ∀ (l : List (M × Bool)) (done : List M) (ends : List Nat) (len mx : Nat),
    ((openLoop done l ends len mx).2 = true ↔ ∀ p ∈ l, p.1.opened = false ∧ p.2 = true) ∧
    ((openLoop done l ends len mx).2 = true →
      (openLoop done l ends len mx).1.mem = done.reverse ++ l.map (fun p => { p.1 with opened := true }) ∧
      (openLoop done l ends len mx).1.length = len + total (l.map (·.1)) ∧
      (openLoop done l ends len mx).1.ends.length = ends.length + l.length ∧
      (∀ i, i < ends.length → (openLoop done l ends len mx).1.ends[i]? = ends[i]?) ∧
      (∀ i, i < l.length → (openLoop done l ends len mx).1.ends[ends.length + i]? =
        some (len + total ((l.map (·.1)).take (i + 1)))) ∧
      (openLoop done l ends len mx).1.maxIo ≤ mx ∧
      (∀ p ∈ l, (openLoop done l ends len mx).1.maxIo ≤ p.1.maxIo) ∧
      ((openLoop done l ends len mx).1.maxIo = mx ∨
        ∃ p ∈ l, (openLoop done l ends len mx).1.maxIo = p.1.maxIo)) ∧
    ((openLoop done l ends len mx).2 = false →
      ∃ n, n < l.length ∧ (openLoop done l ends len mx).1.mem =
        (done.map (fun m => { m with opened := false })).reverse ++
        (l.take n).map (fun p => { p.1 with opened := false }) ++ (l.drop n).map (·.1)) := by
  intro l
  induction l with
  | nil =>
    intro done ends len mx
    refine ⟨by simp [openLoop], fun _ => ?_, fun h => (by cases h)⟩
    simp [openLoop, total]
  | cons p l ih =>
    intro done ends len mx
    obtain ⟨m, ok⟩ := p
    unfold openLoop
    by_cases h : (m.opened || !ok) = true
    · rw [if_pos h]
      refine ⟨⟨fun x => (by cases x), fun x => ?_⟩, fun x => (by cases x), fun _ => ⟨0, by simp, by simp⟩⟩
      have : m.opened = false ∧ ok = true := x (m, ok) (by simp)
      rw [this.1, this.2] at h
      cases h
    · rw [if_neg h]
      simp only [Bool.or_eq_true, Bool.not_eq_true', not_or, Bool.not_eq_true, Bool.not_eq_false] at h
      obtain ⟨i1, i2, i3⟩ := ih ({ m with opened := true } :: done) (ends ++ [len + m.len]) (len + m.len)
        (min mx m.maxIo)
      refine ⟨?_, fun x => ?_, fun x => ?_⟩
      · rw [i1]
        constructor
        · intro x p hp
          rcases List.mem_cons.mp hp with hp | hp
          · rw [hp]; exact h
          · exact x p hp
        · exact fun x p hp => x p (List.mem_cons_of_mem _ hp)
      · obtain ⟨a, b, c, d, e, f, g, k⟩ := i2 x
        refine ⟨by rw [a]; simp, by rw [b]; simp [total]; omega, by rw [c]; simp; omega, ?_, ?_, ?_, ?_, ?_⟩
        · intro i hi
          rw [d i (by simp; omega), List.getElem?_append_left hi]
        · intro i hi
          cases i with
          | zero =>
            have := d ends.length (by simp)
            rw [Nat.add_zero, this]
            simp [total]
          | succ i =>
            have := e i (by simp at hi; omega)
            simp only [List.length_append, List.length_singleton] at this
            rw [show ends.length + (i + 1) = ends.length + 1 + i by omega, this]
            simp [total]
            omega
        · exact Nat.le_trans f (Nat.min_le_left ..)
        · intro p hp
          rcases List.mem_cons.mp hp with hp | hp
          · rw [hp]; exact Nat.le_trans f (Nat.min_le_right ..)
          · exact g p hp
        · rcases k with k | ⟨p, hp, k⟩
          · rw [k]
            rcases Nat.le_total mx m.maxIo with q | q
            · exact Or.inl (Nat.min_eq_left q)
            · exact Or.inr ⟨(m, ok), by simp, Nat.min_eq_right q⟩
          · exact Or.inr ⟨p, List.mem_cons_of_mem _ hp, k⟩
      · obtain ⟨n, hn, e⟩ := i3 x
        exact ⟨n + 1, by simp; omega, by rw [e]; simp⟩

/-- **A composite volume opens exactly if all its members can be opened.** -/
theorem comp_open_iff (c : Comp) (oks : List Bool) (hl : oks.length = c.mem.length)
    (hc : ∀ m ∈ c.mem, m.opened = false) : (openC c oks).2 = true ↔ ∀ b ∈ oks, b = true := by
  unfold openC
  rw [(openLoop_spec _ _ _ _ _).1]
  constructor
  · intro h b hb
    obtain ⟨i, hi, e⟩ := List.mem_iff_getElem.mp hb
    have := h ((c.mem.zip oks)[i]'(by simp; omega)) (List.getElem_mem _)
    rw [List.getElem_zip] at this
    rw [← e]; exact this.2
  · intro h p hp
    have := List.of_mem_zip (a := p.1) (b := p.2) hp
    exact ⟨hc p.1 this.1, h p.2 this.2⟩

theorem zip_fst {α β} : ∀ (a : List α) (b : List β), b.length = a.length → (a.zip b).map (·.1) = a := by
  intro a b h
  rw [List.map_fst_zip]
  omega

/-- **Open, it has all members open, their total length, the ends of the members in order, and the smallest of
their largest I/Os.** -/
theorem comp_open_does (c : Comp) (oks : List Bool) (hl : oks.length = c.mem.length) (h : (openC c oks).2 = true) :
    (openC c oks).1.mem = c.mem.map (fun m => { m with opened := true }) ∧
    (openC c oks).1.length = total c.mem ∧ (openC c oks).1.ends.length = c.mem.length ∧
    (∀ i, i < c.mem.length → (openC c oks).1.ends[i]? = some (total (c.mem.take (i + 1)))) ∧
    (∀ m ∈ c.mem, (openC c oks).1.maxIo ≤ m.maxIo) ∧
    ((openC c oks).1.maxIo = 2 ^ 32 - 1 ∨ ∃ m ∈ c.mem, (openC c oks).1.maxIo = m.maxIo) := by
  obtain ⟨a, b, d, _, e, f, g, k⟩ := (openLoop_spec (c.mem.zip oks) [] [] 0 (2 ^ 32 - 1)).2.1 h
  have hz := zip_fst c.mem oks hl
  have hlen : (c.mem.zip oks).length = c.mem.length := by simp; omega
  unfold openC
  refine ⟨?_, by rw [b, hz]; simp, by rw [d]; simp; omega, ?_, ?_, ?_⟩
  · rw [a]
    have : (c.mem.zip oks).map (fun p => ({ p.1 with opened := true } : M)) =
        ((c.mem.zip oks).map (·.1)).map (fun m => { m with opened := true }) := by rw [List.map_map]; rfl
    rw [this, hz]; rfl
  · intro i hi
    have := e i (by omega)
    rw [hz] at this
    simpa using this
  · intro m hm
    rw [← hz] at hm
    obtain ⟨p, hp, e⟩ := List.mem_map.mp hm
    rw [← e]; exact g p hp
  · rcases k with k | ⟨p, hp, k⟩
    · exact Or.inl k
    · exact Or.inr ⟨p.1, (List.of_mem_zip (a := p.1) (b := p.2) hp).1, k⟩

/-- **If one member cannot be opened, all are closed again.** -/
theorem comp_open_fails (c : Comp) (oks : List Bool) (hl : oks.length = c.mem.length)
    (hc : ∀ m ∈ c.mem, m.opened = false) (h : (openC c oks).2 = false) : (openC c oks).1.mem = c.mem := by
  obtain ⟨n, _, e⟩ := (openLoop_spec (c.mem.zip oks) [] [] 0 (2 ^ 32 - 1)).2.2 h
  have hz := zip_fst c.mem oks hl
  unfold openC
  rw [e]
  have : ∀ l : List (M × Bool), (∀ p ∈ l, p.1.opened = false) →
      l.map (fun p => { p.1 with opened := false }) = l.map (·.1) := by
    intro l hl
    apply List.map_congr_left
    intro p hp
    have := hl p hp
    rw [← this]
  rw [this _ (fun p hp => hc p.1 (List.of_mem_zip (a := p.1) (b := p.2) (List.mem_of_mem_take hp)).1)]
  simp only [List.map_nil, List.reverse_nil, List.nil_append]
  rw [← List.map_append, List.take_append_drop, hz]

/-- **Closed, all members are closed; opening and closing give back the members.** -/
theorem comp_close (c : Comp) : (∀ m ∈ (closeC c).mem, m.opened = false) ∧
    ∀ oks, oks.length = c.mem.length → (∀ m ∈ c.mem, m.opened = false) → (openC c oks).2 = true →
      (closeC (openC c oks).1).mem = c.mem := by
  refine ⟨fun m hm => ?_, fun oks hl hc h => ?_⟩
  · obtain ⟨x, _, e⟩ := List.mem_map.mp hm
    rw [← e]
  · unfold closeC
    simp only [(comp_open_does c oks hl h).1, List.map_map]
    have : ∀ l : List M, (∀ m ∈ l, m.opened = false) →
        l.map ((fun m : M => { m with opened := false }) ∘ fun m => { m with opened := true }) = l := by
      intro l hl
      induction l with
      | nil => rfl
      | cons m l ih =>
        rw [List.map_cons, ih (fun x hx => hl x (List.mem_cons_of_mem _ hx))]
        have := hl m (by simp)
        simp [← this]
    exact this _ hc

/-- **A visitor sees every member in order up to the first at which it returns an error, which is the result.** -/
theorem comp_visit (res : M → Int) (l : List M) :
    ((visitC res l).2 = 0 ↔ ∀ m ∈ l, res m = 0) ∧ ((visitC res l).2 = 0 → (visitC res l).1 = l) ∧
    ((visitC res l).2 ≠ 0 → ∃ a m b, l = a ++ m :: b ∧ (visitC res l).1 = a ++ [m] ∧ (∀ x ∈ a, res x = 0) ∧
      res m = (visitC res l).2) := by
  induction l with
  | nil => exact ⟨by simp [visitC], fun _ => rfl, fun h => absurd rfl h⟩
  | cons m l ih =>
    unfold visitC
    by_cases h : res m = 0
    · rw [if_neg (by simp [h])]
      obtain ⟨i1, i2, i3⟩ := ih
      refine ⟨by simp [i1, h], fun x => by simp [i2 x], fun x => ?_⟩
      obtain ⟨a, y, b, e1, e2, e3, e4⟩ := i3 x
      refine ⟨m :: a, y, b, by simp [← e1], by simp [e2], fun z hz => ?_, e4⟩
      rcases List.mem_cons.mp hz with hz | hz
      · rw [hz]; exact h
      · exact e3 z hz
    · rw [if_pos h]
      exact ⟨⟨fun x => absurd x h, fun x => absurd (x m (by simp)) h⟩, fun x => absurd x h,
        fun _ => ⟨[], m, l, rfl, rfl, by simp, rfl⟩⟩

/-! ## Cases meeting the hypotheses -/

/-- All calls succeed. -/
def allOk : In := ⟨true, true, true, true⟩

/-- A pool volume (0) open, a core (1) with I/O, a device of the user (2). -/
def busy : List Op :=
  [.create 0 .copied allOk, .openV 0 true, .create 1 .kept allOk, .openV 1 true, .ioNew 1 true, .ioNew 1 true,
   .create 2 .copied allOk]

example : (run busy).live = [4, 3, 2, 1, 0] ∧ (run busy).hooks = [3, 2, 0] := by decide

example : ∃ v, (run busy).vols 1 = some v ∧ v.opened = true ∧ v.cnt = 2 ∧ v.stuck = false ∧ v.frz = 0 ∧
    (run busy).renamed = false ∧ (run busy).bug = false := ⟨_, rfl, rfl, rfl, rfl, rfl, rfl, rfl⟩

example : ∃ v, (run (busy ++ [.closeStart 1])).vols 1 = some v ∧ v.closing = true ∧ v.cnt = 2 :=
  ⟨_, rfl, rfl, rfl⟩

example : (attach (run busy) 7 2 allOk true).2 = true ∧ (init (run busy) 7 .no allOk).2 = true ∧
    (init (run busy) 8 .kept allOk).2 = true ∧ (init (run busy) 8 .copied { allOk with text := false }).2 = false :=
  ⟨rfl, rfl, rfl, rfl⟩

example : (openC (adds [(⟨true, 10, 7⟩, true), (⟨false, 0, 0⟩, false), (⟨false, 20, 5⟩, true)]) [true, true]) =
    (⟨[⟨true, 10, 7⟩, ⟨true, 20, 5⟩], [10, 30], 30, 5⟩, true) := by decide

example : (openC (adds [(⟨true, 10, 7⟩, true), (⟨false, 20, 5⟩, true)]) [true, false]).1.mem =
    [⟨false, 10, 7⟩, ⟨false, 20, 5⟩] ∧
    (openC (adds [(⟨true, 10, 7⟩, true), (⟨false, 20, 5⟩, true)]) [true, false]).2 = false := by decide

/-! ## What goes wrong -/

/-- **A core loaded from the pool never takes I/O on its volume**: the counter that stays is the frozen one of
the volume initialised, and the volume is open already. -/
theorem pool_core_stuck {l : List Op} {k j : Nat} {w : V} {i : In} (hk : (run l).vols k = none)
    (hw : Usable (run l) j w) (ho : w.opened = true) (hcl : w.closing = false) (hb : (run l).bug = false)
    (hr : (init (run l) k .kept i).2 = true) (hc : w.cnt = 0) :
    ∃ v, (run (l ++ [.load k j i])).vols k = some v ∧ v.opened = true ∧
      ∀ ok, (ioNew (run (l ++ [.load k j i])) k v ok).2 = false := by
  have e : run (l ++ [.load k j i]) = load (run l) k j i := by
    rw [run_snoc]; unfold step; simp [hb, hk, hw.1, hw.2, hcl]
  obtain ⟨⟨v, h1, h2, h3, _, _, _, h7⟩, _⟩ := load_eq hk hw.1 hb hr hc
  rw [← e] at h1
  refine ⟨v, h1, by rw [h3, ho], fun ok => ?_⟩
  have hz := ((inv_run (l ++ [.load k j i])).loc k v h1).fz (by rw [h2]; exact hw.2)
  unfold ioNew
  rw [if_pos]
  rw [h7, ho] at hz
  simp [bn] at hz
  omega

/-- **Every load of a core from the pool leaves an `on_init` without `on_deinit`.** -/
theorem load_loses {l : List Op} {k j : Nat} {w : V} {i : In} (hk : (run l).vols k = none) (hw : Usable (run l) j w)
    (hb : (run l).bug = false) (hr : (init (run l) k .kept i).2 = true) (hc : w.cnt = 0) :
    (load (run l) k j i).lost = true := (load_eq hk hw.1 hb hr hc).2.2.2.2

/-- **Replacing the uuid of a core taken from the pool** makes its deinitialisation free memory of the
caller. -/
theorem renamed_frees : (run [.create 0 .copied allOk, .load 1 0 allOk, .setUuid 1, .destroy 1]).bad = true := by
  decide

/-- **An attach given an open volume fails, and the volume is gone without having been closed.** -/
theorem attach_unclosed {l : List Op} {k j : Nat} {w : V} {i : In} {ok : Bool} (hk : (run l).vols k = none)
    (hw : Usable (run l) j w) (ho : w.opened = true) (hb : (run l).bug = false)
    (hr : (init (run l) k .no i).2 = true) (hc : w.cnt = 0) :
    (attach (run l) k j i ok).2 = false ∧ (attach (run l) k j i ok).1.unclosed = true ∧
    (attach (run l) k j i ok).1.vols k = none := by
  obtain ⟨h1, _, _, _, h5⟩ := attach_eq (ok := ok) hk hw.1 hw.2 hb hr hc
  have hx : (attach (run l) k j i ok).2 = false := by
    cases hx : (attach (run l) k j i ok).2
    · rfl
    · have := (h1.mp hx).1; rw [ho] at this; cases this
  exact ⟨hx, by rw [(h5 hx).2, ho]; simp, (h5 hx).1⟩

/-- **Taking a pool volume with I/O on it fails an assertion.** -/
theorem pool_io_bug :
    (run [.create 0 .copied allOk, .openV 0 true, .ioNew 0 true, .load 1 0 allOk]).bug = true := by decide

/-- **A volume made without a uuid is never given `on_init` but is given `on_deinit`.** -/
theorem anon_deinit : (run [.create 0 .no allOk, .destroy 0]).extra = true := by decide

end Verif.Volume
