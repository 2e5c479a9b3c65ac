import Verif.Model.Volume

/-! Lemmas on volumes (C58). -/

namespace Verif.Volume

/-- The allocation belongs to the volume. -/
def OwnV (v : V) (a : Nat) : Prop := v.priv = some a ∨ v.data = .copy a

/-- Freeze counter of a volume from what it is. -/
def base : Bool → Bool → Nat
  | true, false => 0
  | _, _ => 1

/-- One for true. -/
def bn : Bool → Nat
  | true => 1
  | false => 0

/-- What holds of one volume. -/
structure Loc (s : St) (v : V) : Prop where
  t1 : v.typ = true → ∃ a, v.priv = some a ∧ (a ∈ s.hooks ↔ v.anon = false)
  t2 : v.typ = false → v.priv = none ∧ v.data = .null ∧ v.opened = false ∧ v.cnt = 0
  fz : v.typ = true → v.frz = base v.opened v.closing + bn v.stuck
  cl : v.closing = true → v.opened = true
  ct : v.cnt ≠ 0 → v.opened = true ∧ v.stuck = false
  dc : ∀ a, v.data = .copy a → v.own = true
  dm : v.data = .md → v.own = false
  du : v.data = .user → s.renamed = true
  pd : ∀ a, v.priv = some a → v.data ≠ .copy a

/-- What holds of all volumes. -/
structure Inv (s : St) : Prop where
  nd : s.live.Nodup
  fr : ∀ a ∈ s.live, a < s.next
  hnd : s.hooks.Nodup
  hfr : ∀ a ∈ s.hooks, a < s.next
  loc : ∀ k v, s.vols k = some v → Loc s v
  own : ∀ a, a ∈ s.live ↔ ∃ k v, s.vols k = some v ∧ OwnV v a
  inj : ∀ k k' v v' a, s.vols k = some v → s.vols k' = some v' → OwnV v a → OwnV v' a → k = k'
  bad : s.renamed = false → s.bad = false

theorem inv_init : Inv {} := by
  constructor <;> simp

theorem upd_same (f : Nat → Option V) (k : Nat) (v : Option V) : upd f k v k = v := if_pos rfl

theorem upd_other (f : Nat → Option V) {k i : Nat} (v : Option V) (h : i ≠ k) : upd f k v i = f i := if_neg h

/-- A volume changes without its allocations. -/
theorem Inv.same {s : St} (h : Inv s) {k : Nat} {v v' : V} (hv : s.vols k = some v)
    (ho : ∀ a, OwnV v' a ↔ OwnV v a) (hl : Loc s v') : Inv { s with vols := upd s.vols k (some v') } where
  nd := h.nd
  fr := h.fr
  hnd := h.hnd
  hfr := h.hfr
  loc := by
    intro i w hw
    have hw : upd s.vols k (some v') i = some w := hw
    by_cases hi : i = k
    · rw [hi, upd_same] at hw
      cases hw
      exact ⟨hl.1, hl.2, hl.3, hl.4, hl.5, hl.6, hl.7, hl.8, hl.9⟩
    · rw [upd_other _ _ hi] at hw
      have hl := h.loc i w hw
      exact ⟨hl.1, hl.2, hl.3, hl.4, hl.5, hl.6, hl.7, hl.8, hl.9⟩
  own := by
    intro a
    show a ∈ s.live ↔ ∃ i w, upd s.vols k (some v') i = some w ∧ OwnV w a
    rw [h.own a]
    constructor
    · rintro ⟨i, w, hw, ha⟩
      by_cases hi : i = k
      · rw [hi, hv] at hw
        cases hw
        exact ⟨k, v', upd_same .., (ho a).mpr ha⟩
      · exact ⟨i, w, by rw [upd_other _ _ hi]; exact hw, ha⟩
    · rintro ⟨i, w, hw, ha⟩
      by_cases hi : i = k
      · rw [hi, upd_same] at hw
        cases hw
        exact ⟨k, v, hv, (ho a).mp ha⟩
      · rw [upd_other _ _ hi] at hw
        exact ⟨i, w, hw, ha⟩
  inj := by
    have key : ∀ i w a, upd s.vols k (some v') i = some w → OwnV w a → ∃ w', s.vols i = some w' ∧ OwnV w' a := by
      intro i w a hw ha
      by_cases hi : i = k
      · rw [hi, upd_same] at hw
        cases hw
        exact ⟨v, by rw [hi]; exact hv, (ho a).mp ha⟩
      · rw [upd_other _ _ hi] at hw
        exact ⟨w, hw, ha⟩
    intro i i' w w' a h1 h2 h3 h4
    obtain ⟨x, hx, hx'⟩ := key i w a h1 h3
    obtain ⟨y, hy, hy'⟩ := key i' w' a h2 h4
    exact h.inj i i' x y a hx hy hx' hy'
  bad := h.bad

theorem free_live {s : St} {a : Nat} (h : a ∈ s.live) : free s a = { s with live := s.live.erase a } := if_pos h

/-- Freeing private part and uuid of a volume. -/
theorem free_all {s : St} (h : Inv s) {k : Nat} {v : V} (hv : s.vols k = some v) (t : St)
    (ht : t.live = s.live ∧ t.bad = s.bad) : ∃ live bad,
    freeUuid (freeOpt t v.priv) v = { t with live := live, bad := bad } ∧ live.Nodup ∧
    (∀ a, a ∈ live ↔ a ∈ s.live ∧ ¬ OwnV v a) ∧ (s.renamed = false → bad = false) := by
  have hl := h.loc k v hv
  have hm : ∀ a, OwnV v a → a ∈ s.live := fun a ha => (h.own a).mpr ⟨k, v, hv, ha⟩
  obtain ⟨tv, tl, tn, th, tb, tg, te, tlo, tr, tu⟩ := t
  simp only at ht
  obtain ⟨rfl, rfl⟩ := ht
  have step1 : ∃ l1, freeOpt ⟨tv, s.live, tn, th, s.bad, tg, te, tlo, tr, tu⟩ v.priv =
      ⟨tv, l1, tn, th, s.bad, tg, te, tlo, tr, tu⟩ ∧ l1.Nodup ∧
      (∀ a, a ∈ l1 ↔ a ∈ s.live ∧ v.priv ≠ some a) := by
    cases hp : v.priv with
    | none => exact ⟨s.live, rfl, h.nd, fun a => ⟨fun x => ⟨x, fun y => (by cases y)⟩, fun x => x.1⟩⟩
    | some b =>
      refine ⟨s.live.erase b, free_live (s := ⟨tv, s.live, tn, th, s.bad, tg, te, tlo, tr, tu⟩) (hm b (Or.inl hp)),
        h.nd.erase _, fun a => ?_⟩
      rw [h.nd.mem_erase_iff]
      constructor
      · rintro ⟨x, y⟩; exact ⟨y, fun z => x (Option.some.inj z).symm⟩
      · rintro ⟨x, y⟩; exact ⟨fun z => y (by rw [z]), x⟩
  obtain ⟨l1, e1, n1, m1⟩ := step1
  rw [e1]
  unfold freeUuid
  cases hd : v.data with
  | null =>
    refine ⟨l1, s.bad, by simp, n1, fun a => ?_, h.bad⟩
    rw [m1]; unfold OwnV; rw [hd]; simp
  | copy b =>
    have hb : b ∈ l1 := (m1 b).mpr ⟨hm b (Or.inr hd), fun x => hl.pd b x hd⟩
    rw [if_pos (hl.dc b hd)]
    refine ⟨l1.erase b, s.bad, free_live (s := ⟨tv, l1, tn, th, s.bad, tg, te, tlo, tr, tu⟩) hb, n1.erase _,
      fun a => ?_, h.bad⟩
    rw [n1.mem_erase_iff, m1]
    unfold OwnV
    rw [hd]
    constructor
    · rintro ⟨x, y, z⟩
      exact ⟨y, fun w => w.elim z (fun u => x (by cases u; rfl))⟩
    · rintro ⟨x, y⟩
      exact ⟨fun z => y (Or.inr (by rw [z])), x, fun z => y (Or.inl z)⟩
  | md =>
    rw [if_neg (by rw [hl.dm hd]; simp)]
    refine ⟨l1, s.bad, rfl, n1, fun a => ?_, h.bad⟩
    rw [m1]; unfold OwnV; rw [hd]; simp
  | user =>
    have hr := hl.du hd
    cases ho : v.own
    · refine ⟨l1, s.bad, by simp, n1, fun a => ?_, h.bad⟩
      rw [m1]; unfold OwnV; rw [hd]; simp
    · refine ⟨l1, true, by simp, n1, fun a => ?_, fun x => (by rw [hr] at x; cases x)⟩
      rw [m1]; unfold OwnV; rw [hd]; simp

/-- The allocations of another volume are not freed. -/
theorem Inv.other {s : St} (h : Inv s) {k i : Nat} {v w : V} (hv : s.vols k = some v) (hw : s.vols i = some w)
    (hi : i ≠ k) {a : Nat} (ha : OwnV w a) : ¬ OwnV v a := fun x => hi (h.inj i k w v a hw hv ha x)

theorem Inv.deinit {s : St} (h : Inv s) {k : Nat} {v : V} (hv : s.vols k = some v) : Inv (deinit s k v) := by
  have hl := h.loc k v hv
  -- hooks after `on_deinit`
  have hk : ∃ hs ex, onDeinit { s with unclosed := s.unclosed || v.opened } v =
      { s with unclosed := s.unclosed || v.opened, hooks := hs, extra := ex } ∧ hs.Nodup ∧
      (∀ a, a ∈ hs ↔ a ∈ s.hooks ∧ (v.typ = true → v.priv ≠ some a)) := by
    unfold onDeinit
    cases ht : v.typ
    · exact ⟨s.hooks, s.extra, rfl, h.hnd, fun a => ⟨fun x => ⟨x, fun y => (by cases y)⟩, fun x => x.1⟩⟩
    · obtain ⟨b, hb, _⟩ := hl.t1 ht
      rw [hb]
      simp only [if_true]
      split
      · refine ⟨s.hooks.erase b, s.extra, rfl, h.hnd.erase _, fun a => ?_⟩
        rw [h.hnd.mem_erase_iff]
        constructor
        · rintro ⟨x, y⟩; exact ⟨y, fun _ z => x (Option.some.inj z).symm⟩
        · rintro ⟨x, y⟩; exact ⟨fun z => y trivial (by rw [z]), x⟩
      · rename_i hn
        refine ⟨s.hooks, true, rfl, h.hnd, fun a => ?_⟩
        constructor
        · intro x; exact ⟨x, fun _ z => hn (by cases z; exact x)⟩
        · exact fun x => x.1
  obtain ⟨hs, ex, e1, n1, m1⟩ := hk
  obtain ⟨live, bad, e2, n2, m2, b2⟩ := free_all h hv
    { s with unclosed := s.unclosed || v.opened, hooks := hs, extra := ex } ⟨rfl, rfl⟩
  unfold Volume.deinit
  simp only [e1, e2]
  exact {
    nd := n2
    fr := fun a ha => h.fr a ((m2 a).mp ha).1
    hnd := n1
    hfr := fun a ha => h.hfr a ((m1 a).mp ha).1
    loc := by
      intro i w hw
      have hw : upd s.vols k none i = some w := hw
      by_cases hi : i = k
      · rw [hi, upd_same] at hw; cases hw
      · rw [upd_other _ _ hi] at hw
        have hlw := h.loc i w hw
        refine ⟨fun ht => ?_, hlw.2, hlw.3, hlw.4, hlw.5, hlw.6, hlw.7, hlw.8, hlw.9⟩
        obtain ⟨a, ha, hb⟩ := hlw.t1 ht
        refine ⟨a, ha, ?_⟩
        show a ∈ hs ↔ _
        rw [m1, ← hb]
        exact ⟨fun x => x.1, fun x => ⟨x, fun _ y => h.other hv hw hi (Or.inl ha) (Or.inl y)⟩⟩
    own := by
      intro a
      show a ∈ live ↔ ∃ i w, upd s.vols k none i = some w ∧ OwnV w a
      rw [m2, h.own]
      constructor
      · rintro ⟨⟨i, w, hw, ha⟩, hn⟩
        by_cases hi : i = k
        · rw [hi, hv] at hw; cases hw; exact absurd ha hn
        · exact ⟨i, w, by rw [upd_other _ _ hi]; exact hw, ha⟩
      · rintro ⟨i, w, hw, ha⟩
        by_cases hi : i = k
        · rw [hi, upd_same] at hw; cases hw
        · rw [upd_other _ _ hi] at hw
          exact ⟨⟨i, w, hw, ha⟩, h.other hv hw hi ha⟩
    inj := by
      intro i i' w w' a h1 h2 h3 h4
      have h1 : upd s.vols k none i = some w := h1
      have h2 : upd s.vols k none i' = some w' := h2
      by_cases hi : i = k
      · rw [hi, upd_same] at h1; cases h1
      · by_cases hi' : i' = k
        · rw [hi', upd_same] at h2; cases h2
        · rw [upd_other _ _ hi] at h1
          rw [upd_other _ _ hi'] at h2
          exact h.inj i i' w w' a h1 h2 h3 h4
    bad := b2 }

/-- A fresh volume: closed, not used. -/
structure Fresh (v : V) : Prop where
  op : v.opened = false
  cl : v.closing = false
  fz : v.frz = 1
  ct : v.cnt = 0
  st : v.stuck = false

theorem Inv.move {s : St} (h : Inv s) {k j : Nat} {v w : V} (hv : s.vols k = some v) (hw : s.vols j = some w)
    (hkj : k ≠ j) (hf : Fresh v) (ht : w.typ = true) (hc : w.closing = false) : Inv (move s k j v w) := by
  unfold Volume.move
  split
  · exact ⟨h.nd, h.fr, h.hnd, h.hfr, fun i x hx => (by have := h.loc i x hx; exact ⟨this.1, this.2, this.3, this.4,
      this.5, this.6, this.7, this.8, this.9⟩), h.own, h.inj, h.bad⟩
  · rename_i hn
    simp only [Bool.or_eq_true, decide_eq_true_eq, not_or, Decidable.not_not] at hn
    obtain ⟨live, bad, e2, n2, m2, b2⟩ := free_all h hv { s with lost := s.lost || due s.hooks v.priv } ⟨rfl, rfl⟩
    simp only [e2]
    have hlw := h.loc j w hw
    generalize hv' : ({ v with opened := w.opened, typ := w.typ, data := w.data, own := w.own, priv := w.priv
                               anon := w.anon, stuck := w.opened } : V) = v'
    generalize hw' : ({ w with opened := false, priv := none, data := .null, typ := false } : V) = w'
    have hov : ∀ a, OwnV v' a ↔ OwnV w a := by subst hv'; exact fun a => Iff.rfl
    have how : ∀ a, ¬ OwnV w' a := by subst hw'; intro a x; rcases x with x | x <;> cases x
    have hget : ∀ i x, upd (upd s.vols k (some v')) j (some w') i = some x →
        (i = j ∧ x = w') ∨ (i = k ∧ x = v') ∨ (i ≠ j ∧ i ≠ k ∧ s.vols i = some x) := by
      intro i x hx
      by_cases hi : i = j
      · rw [hi, upd_same] at hx; cases hx; exact Or.inl ⟨hi, rfl⟩
      · rw [upd_other _ _ hi] at hx
        by_cases hi' : i = k
        · rw [hi', upd_same] at hx; cases hx; exact Or.inr (Or.inl ⟨hi', rfl⟩)
        · rw [upd_other _ _ hi'] at hx; exact Or.inr (Or.inr ⟨hi, hi', hx⟩)
    -- every owner afterwards was an owner before, at the place it came from
    have src : ∀ i x a, upd (upd s.vols k (some v')) j (some w') i = some x → OwnV x a →
        (i = k ∧ OwnV w a) ∨ (i ≠ j ∧ i ≠ k ∧ s.vols i = some x) := by
      intro i x a hx ha
      rcases hget i x hx with ⟨_, r⟩ | ⟨r1, r2⟩ | r
      · rw [r] at ha; exact absurd ha (how a)
      · rw [r2] at ha; exact Or.inl ⟨r1, (hov a).mp ha⟩
      · exact Or.inr r
    exact {
      nd := n2
      fr := fun a ha => h.fr a ((m2 a).mp ha).1
      hnd := h.hnd
      hfr := h.hfr
      loc := by
        intro i x hx
        rcases hget i x hx with ⟨_, r⟩ | ⟨_, r⟩ | ⟨_, _, r⟩
        · subst hw'
          rw [r]
          exact {
            t1 := fun y => (by cases y)
            t2 := fun _ => ⟨rfl, rfl, rfl, hn.2⟩
            fz := fun y => (by cases y)
            cl := fun y => (by have y : w.closing = true := y; rw [hc] at y; cases y)
            ct := fun y => absurd hn.2 y
            dc := fun a y => (by cases y)
            dm := fun y => (by cases y)
            du := fun y => (by cases y)
            pd := fun a y => (by cases y) }
        · subst hv'
          rw [r]
          exact {
            t1 := hlw.t1
            t2 := fun y => (by have y : w.typ = false := y; rw [ht] at y; cases y)
            fz := fun _ => (by
              show v.frz = base w.opened v.closing + bn w.opened
              rw [hf.fz, hf.cl]
              cases w.opened <;> rfl)
            cl := fun y => (by have y : v.closing = true := y; rw [hf.cl] at y; cases y)
            ct := fun y => absurd hf.ct y
            dc := hlw.dc
            dm := hlw.dm
            du := hlw.du
            pd := hlw.pd }
        · have := h.loc i x r
          exact ⟨this.1, this.2, this.3, this.4, this.5, this.6, this.7, this.8, this.9⟩
      own := by
        intro a
        show a ∈ live ↔ ∃ i x, upd (upd s.vols k (some v')) j (some w') i = some x ∧ OwnV x a
        rw [m2, h.own]
        constructor
        · rintro ⟨⟨i, x, hx, ha⟩, hna⟩
          by_cases hi : i = k
          · rw [hi, hv] at hx; cases hx; exact absurd ha hna
          · by_cases hi' : i = j
            · rw [hi', hw] at hx; cases hx
              exact ⟨k, v', by rw [upd_other _ _ hkj, upd_same], (hov a).mpr ha⟩
            · exact ⟨i, x, by rw [upd_other _ _ hi', upd_other _ _ hi]; exact hx, ha⟩
        · rintro ⟨i, x, hx, ha⟩
          rcases src i x a hx ha with ⟨_, r⟩ | ⟨_, r2, r3⟩
          · exact ⟨⟨j, w, hw, r⟩, h.other hv hw (Ne.symm hkj) r⟩
          · exact ⟨⟨i, x, r3, ha⟩, h.other hv r3 r2 ha⟩
      inj := by
        intro i i' x x' a h1 h2 h3 h4
        rcases src i x a h1 h3 with ⟨r1, r2⟩ | ⟨r1, r2, r3⟩
        · rcases src i' x' a h2 h4 with ⟨q1, _⟩ | ⟨q1, _, q3⟩
          · rw [r1, q1]
          · exact absurd (h.inj i' j x' w a q3 hw h4 r2) q1
        · rcases src i' x' a h2 h4 with ⟨_, q2⟩ | ⟨_, _, q3⟩
          · exact absurd (h.inj i j x w a r3 hw h3 q2) r1
          · exact h.inj i i' x x' a r3 q3 h3 h4
      bad := b2 }

/-- A new volume with allocations never used before. -/
theorem Inv.add {s : St} (h : Inv s) {k : Nat} {v : V} (hk : s.vols k = none) (news : List Nat) (n : Nat)
    (hooks : List Nat) (hn : news.Nodup) (hf : ∀ a ∈ news, s.next ≤ a ∧ a < n) (hle : s.next ≤ n)
    (ho : ∀ a, OwnV v a ↔ a ∈ news) (hh : ∀ a ∈ hooks, a ∈ s.hooks ∨ (s.next ≤ a ∧ a < n))
    (hh' : ∀ a ∈ s.hooks, a ∈ hooks) (hhn : hooks.Nodup)
    (hl : Loc { s with vols := upd s.vols k (some v), live := news ++ s.live, next := n, hooks := hooks } v) :
    Inv { s with vols := upd s.vols k (some v), live := news ++ s.live, next := n, hooks := hooks } := by
  have hget : ∀ i x, upd s.vols k (some v) i = some x → (i = k ∧ x = v) ∨ (i ≠ k ∧ s.vols i = some x) := by
    intro i x hx
    by_cases hi : i = k
    · rw [hi, upd_same] at hx; cases hx; exact Or.inl ⟨hi, rfl⟩
    · rw [upd_other _ _ hi] at hx; exact Or.inr ⟨hi, hx⟩
  have old : ∀ i x a, s.vols i = some x → OwnV x a → a < s.next := fun i x a hx ha =>
    h.fr a ((h.own a).mpr ⟨i, x, hx, ha⟩)
  exact {
    nd := by
      show (news ++ s.live).Nodup
      rw [List.nodup_append]
      exact ⟨hn, h.nd, fun a ha b hb e => (by have := (hf a ha).1; have := h.fr b hb; omega)⟩
    fr := by
      intro a ha
      rcases List.mem_append.mp ha with ha | ha
      · exact (hf a ha).2
      · exact Nat.lt_of_lt_of_le (h.fr a ha) hle
    hnd := hhn
    hfr := fun a ha => (hh a ha).elim (fun x => Nat.lt_of_lt_of_le (h.hfr a x) hle) (fun x => x.2)
    loc := by
      intro i x hx
      rcases hget i x hx with ⟨_, r⟩ | ⟨_, r⟩
      · rw [r]; exact hl
      · have := h.loc i x r
        refine ⟨fun ht => ?_, this.2, this.3, this.4, this.5, this.6, this.7, this.8, this.9⟩
        obtain ⟨a, ha, hb⟩ := this.t1 ht
        refine ⟨a, ha, ?_⟩
        show a ∈ hooks ↔ _
        rw [← hb]
        refine ⟨fun y => (hh a y).elim id (fun z => ?_), hh' a⟩
        have := old i x a r (Or.inl ha)
        omega
    own := by
      intro a
      show a ∈ news ++ s.live ↔ ∃ i x, upd s.vols k (some v) i = some x ∧ OwnV x a
      rw [List.mem_append, h.own]
      constructor
      · rintro (ha | ⟨i, x, hx, ha⟩)
        · exact ⟨k, v, upd_same .., (ho a).mpr ha⟩
        · refine ⟨i, x, ?_, ha⟩
          rw [upd_other _ _ (fun e => by rw [e, hk] at hx; cases hx)]
          exact hx
      · rintro ⟨i, x, hx, ha⟩
        rcases hget i x hx with ⟨_, r⟩ | ⟨_, r⟩
        · rw [r] at ha; exact Or.inl ((ho a).mp ha)
        · exact Or.inr ⟨i, x, r, ha⟩
    inj := by
      intro i i' x x' a h1 h2 h3 h4
      rcases hget i x h1 with ⟨r1, r2⟩ | ⟨_, r2⟩
      · rcases hget i' x' h2 with ⟨q1, _⟩ | ⟨_, q2⟩
        · rw [r1, q1]
        · rw [r2] at h3
          have := (hf a ((ho a).mp h3)).1
          have := old i' x' a q2 h4
          omega
      · rcases hget i' x' h2 with ⟨_, q2⟩ | ⟨_, q2⟩
        · rw [q2] at h4
          have := (hf a ((ho a).mp h4)).1
          have := old i x a r2 h3
          omega
        · exact h.inj i i' x x' a r2 q2 h3 h4
    bad := h.bad }

/-- Only the next allocation number changes. -/
theorem Inv.skip {s : St} (h : Inv s) {n : Nat} (hn : s.next ≤ n) : Inv { s with next := n } :=
  ⟨h.nd, fun a ha => Nat.lt_of_lt_of_le (h.fr a ha) hn, h.hnd, fun a ha => Nat.lt_of_lt_of_le (h.hfr a ha) hn,
   fun i x hx => (by have := h.loc i x hx; exact ⟨this.1, this.2, this.3, this.4, this.5, this.6, this.7, this.8,
     this.9⟩), h.own, h.inj, h.bad⟩

/-- What an initialisation does: it fails and leaves everything as it was (but the next number), or makes a
fresh volume. -/
theorem init_cases (s : St) (k : Nat) (u : Uuid) (i : In) :
    ((init s k u i).2 = false ∧ ∃ n, s.next ≤ n ∧ (init s k u i).1 = { s with next := n }) ∨
    ((init s k u i).2 = true ∧ (
      (u = .no ∧ (init s k u i).1 = { s with
        vols := upd s.vols k (some ⟨true, false, false, .null, false, some s.next, 1, 0, true, false⟩)
        live := [s.next] ++ s.live, next := s.next + 1, hooks := s.hooks }) ∨
      (u = .copied ∧ (init s k u i).1 = { s with
        vols := upd s.vols k (some ⟨true, false, false, .copy (s.next + 1), true, some s.next, 1, 0, false, false⟩)
        live := [s.next + 1, s.next] ++ s.live, next := s.next + 2, hooks := s.next :: s.hooks }) ∨
      (u = .kept ∧ (init s k u i).1 = { s with
        vols := upd s.vols k (some ⟨true, false, false, .md, false, some s.next, 1, 0, false, false⟩)
        live := [s.next] ++ s.live, next := s.next + 1, hooks := s.next :: s.hooks }))) := by
  obtain ⟨p, r, t, q⟩ := i
  cases p
  · exact Or.inl ⟨rfl, s.next, Nat.le_refl _, rfl⟩
  cases r
  · refine Or.inl ⟨rfl, s.next + 1, by omega, ?_⟩
    simp [init, err1, free]
  cases u
  · exact Or.inr ⟨rfl, Or.inl ⟨rfl, rfl⟩⟩
  · cases t
    · refine Or.inl ⟨rfl, s.next + 1, by omega, ?_⟩
      simp [init, err1, free]
    cases q
    · refine Or.inl ⟨rfl, s.next + 2, by omega, ?_⟩
      simp [init, err3, err1, free, freeUuid]
    · exact Or.inr ⟨rfl, Or.inr (Or.inl ⟨rfl, rfl⟩)⟩
  · cases q
    · refine Or.inl ⟨rfl, s.next + 1, by omega, ?_⟩
      simp [init, err3, err1, free, freeUuid]
    · exact Or.inr ⟨rfl, Or.inr (Or.inr ⟨rfl, rfl⟩)⟩

theorem Inv.init {s : St} (h : Inv s) {k : Nat} (hk : s.vols k = none) (u : Uuid) (i : In) :
    Inv (init s k u i).1 := by
  have hns : s.next ∉ s.hooks := fun x => Nat.lt_irrefl _ (h.hfr _ x)
  rcases init_cases s k u i with ⟨_, n, hn, e⟩ | ⟨_, ⟨_, e⟩ | ⟨_, e⟩ | ⟨_, e⟩⟩
  · rw [e]; exact h.skip hn
  · rw [e]
    refine h.add hk [s.next] (s.next + 1) s.hooks (by simp) (by simp) (by omega) ?_ (fun a x => Or.inl x)
      (fun a x => x) h.hnd ?_
    · intro a; simp [OwnV, eq_comm]
    · constructor <;> simp [base, bn, hns]
  · rw [e]
    refine h.add hk [s.next + 1, s.next] (s.next + 2) (s.next :: s.hooks) (by simp) (by simp) (by omega) ?_ ?_ ?_
      (List.nodup_cons.mpr ⟨hns, h.hnd⟩) ?_
    · intro a; simp [OwnV, eq_comm, or_comm]
    · intro a x
      rcases List.mem_cons.mp x with x | x
      · exact Or.inr (by omega)
      · exact Or.inl x
    · exact fun a x => List.mem_cons_of_mem _ x
    · constructor <;> simp [base, bn]
  · rw [e]
    refine h.add hk [s.next] (s.next + 1) (s.next :: s.hooks) (by simp) (by simp) (by omega) ?_ ?_ ?_
      (List.nodup_cons.mpr ⟨hns, h.hnd⟩) ?_
    · intro a; simp [OwnV, eq_comm]
    · intro a x
      rcases List.mem_cons.mp x with x | x
      · exact Or.inr (by omega)
      · exact Or.inl x
    · exact fun a x => List.mem_cons_of_mem _ x
    · constructor <;> simp [base, bn]

/-- A successful initialisation, for its users. -/
theorem init_true {s : St} {k : Nat} {u : Uuid} {i : In} (h : (init s k u i).2 = true) :
    ∃ v, (init s k u i).1.vols = upd s.vols k (some v) ∧ Fresh v ∧ v.typ = true ∧ (init s k u i).1.bug = s.bug ∧
      v.priv = some s.next ∧ (init s k u i).1.unclosed = s.unclosed ∧ (init s k u i).1.lost = s.lost ∧
      (s.next ∈ (init s k u i).1.hooks ↔ (u ≠ .no ∨ s.next ∈ s.hooks)) := by
  rcases init_cases s k u i with ⟨e, _⟩ | ⟨_, ⟨hu, e⟩ | ⟨hu, e⟩ | ⟨hu, e⟩⟩
  · rw [e] at h; cases h
  all_goals
    rw [e]
    exact ⟨_, rfl, ⟨rfl, rfl, rfl, rfl, rfl⟩, rfl, rfl, rfl, rfl, rfl, by simp [hu]⟩

theorem init_false {s : St} {k : Nat} {u : Uuid} {i : In} (h : (init s k u i).2 = false) :
    ∃ n, (init s k u i).1 = { s with next := n } := by
  rcases init_cases s k u i with ⟨_, n, _, e⟩ | ⟨e, _⟩
  · exact ⟨n, e⟩
  · rw [e] at h; cases h

/-- A move that trips no assertion, for its users. -/
theorem move_ok {s : St} {k j : Nat} {v w : V} (hkj : k ≠ j) (hv : v.cnt = 0) (hw : w.cnt = 0) :
    (move s k j v w).vols k = some { v with opened := w.opened, typ := w.typ, data := w.data, own := w.own
                                            priv := w.priv, anon := w.anon, stuck := w.opened } ∧
    (move s k j v w).vols j = some { w with opened := false, priv := none, data := .null, typ := false } ∧
    (∀ i, i ≠ k → i ≠ j → (move s k j v w).vols i = s.vols i) := by
  have e : ∀ t : St, (freeUuid (freeOpt t v.priv) v).vols = t.vols := by
    intro t
    have h1 : (freeOpt t v.priv).vols = t.vols := by
      cases v.priv with
      | none => rfl
      | some a => show (free t a).vols = _; unfold free; split <;> rfl
    rw [← h1]
    generalize freeOpt t v.priv = t'
    unfold freeUuid
    split
    · split
      · rfl
      · unfold free; split <;> rfl
      · rfl
      · rfl
    · rfl
  unfold move
  rw [if_neg (by simp [hv, hw])]
  simp only [e]
  refine ⟨by rw [upd_other _ _ hkj, upd_same], by rw [upd_same], fun i h1 h2 => ?_⟩
  rw [upd_other _ _ h2, upd_other _ _ h1]

theorem move_flags {s : St} {k j : Nat} {v w : V} : (move s k j v w).unclosed = s.unclosed ∧
    (move s k j v w).renamed = s.renamed ∧
    ((move s k j v w).bug = true ↔ s.bug = true ∨ v.cnt ≠ 0 ∨ w.cnt ≠ 0) := by
  have e : ∀ t : St, (freeUuid (freeOpt t v.priv) v).unclosed = t.unclosed ∧
      (freeUuid (freeOpt t v.priv) v).renamed = t.renamed ∧ (freeUuid (freeOpt t v.priv) v).bug = t.bug := by
    intro t
    have h1 : (freeOpt t v.priv).unclosed = t.unclosed ∧ (freeOpt t v.priv).renamed = t.renamed ∧
        (freeOpt t v.priv).bug = t.bug := by
      cases v.priv with
      | none => exact ⟨rfl, rfl, rfl⟩
      | some a =>
        show (free t a).unclosed = _ ∧ (free t a).renamed = _ ∧ (free t a).bug = _
        unfold free; split <;> exact ⟨rfl, rfl, rfl⟩
    rw [← h1.1, ← h1.2.1, ← h1.2.2]
    generalize freeOpt t v.priv = t'
    unfold freeUuid
    split
    · split
      · exact ⟨rfl, rfl, rfl⟩
      · unfold free; split <;> exact ⟨rfl, rfl, rfl⟩
      · exact ⟨rfl, rfl, rfl⟩
      · exact ⟨rfl, rfl, rfl⟩
    · exact ⟨rfl, rfl, rfl⟩
  unfold move
  split
  · rename_i hn
    simp only [Bool.or_eq_true, decide_eq_true_eq] at hn
    exact ⟨rfl, rfl, fun _ => Or.inr hn, fun _ => rfl⟩
  · rename_i hn
    simp only [Bool.or_eq_true, decide_eq_true_eq, not_or, Decidable.not_not] at hn
    simp only [e]
    exact ⟨trivial, trivial, fun x => Or.inl x, fun x => x.elim id (fun y => absurd hn (by omega))⟩

theorem onDeinit_flags (s : St) (v : V) : (onDeinit s v).vols = s.vols ∧ (onDeinit s v).bug = s.bug ∧
    (onDeinit s v).unclosed = s.unclosed ∧ (onDeinit s v).lost = s.lost := by
  unfold onDeinit
  split
  · split
    · exact ⟨rfl, rfl, rfl, rfl⟩
    · split <;> exact ⟨rfl, rfl, rfl, rfl⟩
  · exact ⟨rfl, rfl, rfl, rfl⟩

theorem free_flags (t : St) (v : V) : (freeUuid (freeOpt t v.priv) v).vols = t.vols ∧
    (freeUuid (freeOpt t v.priv) v).bug = t.bug ∧ (freeUuid (freeOpt t v.priv) v).unclosed = t.unclosed ∧
    (freeUuid (freeOpt t v.priv) v).lost = t.lost := by
  have hf : ∀ (t : St) (a : Nat), (free t a).vols = t.vols ∧ (free t a).bug = t.bug ∧
      (free t a).unclosed = t.unclosed ∧ (free t a).lost = t.lost := by
    intro t a; unfold free; split <;> exact ⟨rfl, rfl, rfl, rfl⟩
  have h1 : (freeOpt t v.priv).vols = t.vols ∧ (freeOpt t v.priv).bug = t.bug ∧
      (freeOpt t v.priv).unclosed = t.unclosed ∧ (freeOpt t v.priv).lost = t.lost := by
    cases v.priv with
    | none => exact ⟨rfl, rfl, rfl, rfl⟩
    | some a => exact hf t a
  rw [← h1.1, ← h1.2.1, ← h1.2.2.1, ← h1.2.2.2]
  generalize freeOpt t v.priv = t'
  unfold freeUuid
  split
  · split
    · exact ⟨rfl, rfl, rfl, rfl⟩
    · exact hf t' _
    · exact ⟨rfl, rfl, rfl, rfl⟩
    · exact ⟨rfl, rfl, rfl, rfl⟩
  · exact ⟨rfl, rfl, rfl, rfl⟩

theorem deinit_flags (s : St) (k : Nat) (v : V) : (deinit s k v).vols = upd s.vols k none ∧
    (deinit s k v).bug = s.bug ∧ (deinit s k v).unclosed = (s.unclosed || v.opened) ∧
    (deinit s k v).lost = s.lost := by
  have h1 := onDeinit_flags { s with unclosed := s.unclosed || v.opened } v
  have h2 := free_flags (onDeinit { s with unclosed := s.unclosed || v.opened } v) v
  unfold deinit
  simp only
  rw [h2.1, h2.2.1, h2.2.2.1, h2.2.2.2, h1.1, h1.2.1, h1.2.2.1, h1.2.2.2]
  exact ⟨rfl, rfl, rfl, rfl⟩

theorem move_lost {s : St} {k j : Nat} {v w : V} (hv : v.cnt = 0) (hw : w.cnt = 0) :
    (move s k j v w).lost = (s.lost || due s.hooks v.priv) := by
  unfold move
  rw [if_neg (by simp [hv, hw])]
  exact (free_flags _ v).2.2.2

theorem Inv.openV {s : St} (h : Inv s) {k : Nat} {v : V} (hv : s.vols k = some v) (ht : v.typ = true) (ok : Bool) :
    Inv (openV s k v ok).1 ∧ (openV s k v ok).1.bug = s.bug ∧ (openV s k v ok).1.unclosed = s.unclosed ∧
    (openV s k v ok).1.vols k = some { v with opened := (openV s k v ok).2 || v.opened, frz := v.frz - bn (openV s k v ok).2 } := by
  have hl := h.loc k v hv
  have hz := hl.fz ht
  unfold Volume.openV
  split
  · rename_i ho; refine ⟨h, rfl, rfl, ?_⟩; rw [hv, ho]; simp [bn, ← ho]
  · rename_i ho
    have ho : v.opened = false := by simpa using ho
    split
    · refine ⟨h, rfl, rfl, ?_⟩; rw [hv, ho]; simp [bn, ← ho]
    · rw [ho] at hz
      have hz : v.frz = 1 + bn v.stuck := by rw [hz]; cases v.closing <;> rfl
      rw [if_neg (by omega)]
      refine ⟨h.same hv (fun a => Iff.rfl) ?_, rfl, rfl, upd_same ..⟩
      have hc : v.closing = false := by
        cases hc : v.closing
        · rfl
        · have := hl.cl hc; rw [ho] at this; cases this
      exact {
        t1 := hl.t1
        t2 := fun x => (by have x : v.typ = false := x; rw [ht] at x; cases x)
        fz := fun _ => (by
          show v.frz - 1 = base true v.closing + bn v.stuck
          rw [hz, hc]; simp [base])
        cl := fun _ => rfl
        ct := fun x => ⟨rfl, (hl.ct x).2⟩
        dc := hl.dc, dm := hl.dm, du := hl.du, pd := hl.pd }

theorem Inv.load {s : St} (h : Inv s) {k j : Nat} {w : V} (i : In) (hk : s.vols k = none) (hw : s.vols j = some w)
    (ht : w.typ = true) (hc : w.closing = false) : Inv (load s k j i) := by
  have hkj : k ≠ j := fun e => by rw [e, hw] at hk; cases hk
  have hi := h.init hk .kept i
  unfold Volume.load
  cases hr : (Volume.init s k .kept i).2 with
  | false => simp only [hr, Bool.not_false, if_true]; exact hi
  | true =>
    obtain ⟨v, hvs, hf, _, _⟩ := init_true hr
    have hv : (Volume.init s k .kept i).1.vols k = some v := by rw [hvs, upd_same]
    have hw' : (Volume.init s k .kept i).1.vols j = some w := by rw [hvs, upd_other _ _ (Ne.symm hkj)]; exact hw
    simp only [hr, Bool.not_true, Bool.false_eq_true, if_false, hv, hw']
    have hm := hi.move hv hw' hkj hf ht hc
    split
    · exact hm
    · split
      · rename_i x hx; exact hm.deinit hx
      · exact hm

theorem Inv.attach {s : St} (h : Inv s) {k j : Nat} {w : V} (i : In) (ok : Bool) (hk : s.vols k = none)
    (hw : s.vols j = some w) (ht : w.typ = true) (hc : w.closing = false) : Inv (attach s k j i ok).1 := by
  have hkj : k ≠ j := fun e => by rw [e, hw] at hk; cases hk
  have hi := h.init hk .no i
  unfold Volume.attach
  cases hr : (Volume.init s k .no i).2 with
  | false => simp only [hr, Bool.not_false, if_true]; exact hi
  | true =>
    obtain ⟨v, hvs, hf, _, _⟩ := init_true hr
    have hv : (Volume.init s k .no i).1.vols k = some v := by rw [hvs, upd_same]
    have hw' : (Volume.init s k .no i).1.vols j = some w := by rw [hvs, upd_other _ _ (Ne.symm hkj)]; exact hw
    simp only [hr, Bool.not_true, Bool.false_eq_true, if_false, hv, hw']
    have hm := hi.move hv hw' hkj hf ht hc
    split
    · exact hm
    · rename_i hb
      have hcw : w.cnt = 0 := by
        apply Classical.byContradiction
        intro x
        exact hb (move_flags.2.2.mpr (Or.inr (Or.inr x)))
      rw [(move_ok (s := (Volume.init s k .no i).1) hkj hf.ct hcw).1]
      simp only
      have ho := hm.openV (move_ok (s := (Volume.init s k .no i).1) hkj hf.ct hcw).1 ht ok
      split
      · exact ho.1
      · split
        · rename_i x hx; exact ho.1.deinit hx
        · exact ho.1

theorem Inv.setUuid {s : St} (h : Inv s) {k : Nat} {v : V} (hv : s.vols k = some v) (ht : v.typ = true) :
    Inv (setUuid s k v) := by
  have hl := h.loc k v hv
  have hm : ∀ a, OwnV v a → a ∈ s.live := fun a ha => (h.own a).mpr ⟨k, v, hv, ha⟩
  have key : ∃ live bad, freeUuid s v = { s with live := live, bad := bad } ∧ live.Nodup ∧
      (∀ a, a ∈ live ↔ a ∈ s.live ∧ v.data ≠ .copy a) := by
    unfold freeUuid
    cases hd : v.data with
    | null => exact ⟨s.live, s.bad, by simp, h.nd, fun a => ⟨fun x => ⟨x, fun y => (by cases y)⟩, fun x => x.1⟩⟩
    | copy b =>
      rw [if_pos (hl.dc b hd)]
      refine ⟨s.live.erase b, s.bad, free_live (hm b (Or.inr hd)), h.nd.erase _, fun a => ?_⟩
      rw [h.nd.mem_erase_iff]
      constructor
      · rintro ⟨x, y⟩; exact ⟨y, fun z => x (by cases z; rfl)⟩
      · rintro ⟨x, y⟩; exact ⟨fun z => y (by rw [z]), x⟩
    | md =>
      rw [if_neg (by rw [hl.dm hd]; simp)]
      exact ⟨s.live, s.bad, rfl, h.nd, fun a => ⟨fun x => ⟨x, fun y => (by cases y)⟩, fun x => x.1⟩⟩
    | user =>
      cases ho : v.own
      · exact ⟨s.live, s.bad, by simp, h.nd, fun a => ⟨fun x => ⟨x, fun y => (by cases y)⟩, fun x => x.1⟩⟩
      · exact ⟨s.live, true, by simp, h.nd, fun a => ⟨fun x => ⟨x, fun y => (by cases y)⟩, fun x => x.1⟩⟩
  obtain ⟨live, bad, e, n, m⟩ := key
  unfold Volume.setUuid
  simp only [e]
  have hov : ∀ a, OwnV { v with data := .user } a ↔ v.priv = some a := fun a =>
    ⟨fun x => x.elim id (fun y => (by cases y)), Or.inl⟩
  have hget : ∀ i x, upd s.vols k (some { v with data := .user }) i = some x →
      (i = k ∧ x = { v with data := .user }) ∨ (i ≠ k ∧ s.vols i = some x) := by
    intro i x hx
    by_cases hi : i = k
    · rw [hi, upd_same] at hx; cases hx; exact Or.inl ⟨hi, rfl⟩
    · rw [upd_other _ _ hi] at hx; exact Or.inr ⟨hi, hx⟩
  have src : ∀ i x a, upd s.vols k (some { v with data := .user }) i = some x → OwnV x a →
      ∃ y, s.vols i = some y ∧ OwnV y a := by
    intro i x a hx ha
    rcases hget i x hx with ⟨r1, r2⟩ | ⟨_, r⟩
    · rw [r2] at ha
      exact ⟨v, by rw [r1]; exact hv, Or.inl ((hov a).mp ha)⟩
    · exact ⟨x, r, ha⟩
  exact {
    nd := n
    fr := fun a ha => h.fr a ((m a).mp ha).1
    hnd := h.hnd
    hfr := h.hfr
    loc := by
      intro i x hx
      rcases hget i x hx with ⟨_, r⟩ | ⟨_, r⟩
      · rw [r]
        exact {
          t1 := hl.t1
          t2 := fun y => (by have y : v.typ = false := y; rw [ht] at y; cases y)
          fz := hl.fz, cl := hl.cl, ct := hl.ct
          dc := fun a y => (by cases y)
          dm := fun y => (by cases y)
          du := fun _ => rfl
          pd := fun a _ y => (by cases y) }
      · have := h.loc i x r
        exact ⟨this.1, this.2, this.3, this.4, this.5, this.6, this.7, fun _ => rfl, this.9⟩
    own := by
      intro a
      show a ∈ live ↔ ∃ i x, upd s.vols k (some { v with data := .user }) i = some x ∧ OwnV x a
      rw [m, h.own]
      constructor
      · rintro ⟨⟨i, x, hx, ha⟩, hna⟩
        by_cases hi : i = k
        · rw [hi, hv] at hx
          cases hx
          exact ⟨k, _, upd_same .., Or.inl (ha.elim id (fun y => absurd y hna))⟩
        · exact ⟨i, x, by rw [upd_other _ _ hi]; exact hx, ha⟩
      · rintro ⟨i, x, hx, ha⟩
        refine ⟨⟨i, src i x a hx ha⟩, fun y => ?_⟩
        rcases hget i x hx with ⟨_, r2⟩ | ⟨r1, r⟩
        · rw [r2] at ha
          exact hl.pd a ((hov a).mp ha) y
        · exact h.other hv r r1 ha (Or.inr y)
    inj := by
      intro i i' x x' a h1 h2 h3 h4
      obtain ⟨y, hy, hy'⟩ := src i x a h1 h3
      obtain ⟨z, hz, hz'⟩ := src i' x' a h2 h4
      exact h.inj i i' y z a hy hz hy' hz'
    bad := fun x => (by cases x) }

theorem Inv.step {s : St} (h : Inv s) (o : Op) : Inv (step s o) := by
  unfold Volume.step
  split
  · exact h
  cases o with
  | create k u i =>
    simp only
    split
    · rename_i hk; exact h.init hk u i
    · exact h
  | destroy k =>
    simp only
    split
    · rename_i v hv
      split
      · exact h
      · exact h.deinit hv
    · exact h
  | setUuid k =>
    simp only
    split
    · rename_i v hv
      split
      · rename_i ht; exact h.setUuid hv ht
      · exact h
    · exact h
  | openV k ok =>
    simp only
    split
    · rename_i v hv
      split
      · rename_i ht; exact (h.openV hv ht ok).1
      · exact h
    · exact h
  | closeStart k =>
    simp only
    split
    · rename_i v hv
      have hl := h.loc k v hv
      split
      · rename_i ht
        simp only [Bool.and_eq_true, Bool.not_eq_true'] at ht
        unfold Volume.closeStart
        split
        · exact h
        · rename_i ho
          have ho : v.opened = true := by simpa using ho
          refine h.same hv (fun a => Iff.rfl) ?_
          exact {
            t1 := hl.t1
            t2 := fun x => (by have x : v.typ = false := x; rw [ht.1] at x; cases x)
            fz := fun _ => (by
              show v.frz + 1 = base v.opened true + bn v.stuck
              rw [hl.fz ht.1, ht.2, ho]; simp [base]; omega)
            cl := fun _ => ho
            ct := hl.ct
            dc := hl.dc, dm := hl.dm, du := hl.du, pd := hl.pd }
      · exact h
    · exact h
  | closeEnd k =>
    simp only
    split
    · rename_i v hv
      have hl := h.loc k v hv
      unfold Volume.closeEnd
      split
      · rename_i hc
        simp only [Bool.and_eq_true, decide_eq_true_eq] at hc
        have ho := hl.cl hc.1
        refine h.same hv (fun a => Iff.rfl) ?_
        exact {
          t1 := hl.t1
          t2 := fun x => (by have := hl.t2 x; rw [ho] at this; cases this.2.2.1)
          fz := fun x => (by
            show v.frz = base false false + bn v.stuck
            rw [hl.fz x, hc.1, ho]; simp [base])
          cl := fun x => (by cases x)
          ct := fun x => absurd hc.2 x
          dc := hl.dc, dm := hl.dm, du := hl.du, pd := hl.pd }
      · exact h
    · exact h
  | ioNew k ok =>
    simp only
    split
    · rename_i v hv
      have hl := h.loc k v hv
      split
      · rename_i ht
        unfold Volume.ioNew
        split
        · exact h
        · rename_i hz
          split
          · exact h
          · have hz' := hl.fz ht
            have hb : base v.opened v.closing = 0 ∧ bn v.stuck = 0 := by omega
            refine h.same hv (fun a => Iff.rfl) ?_
            exact {
              t1 := hl.t1
              t2 := fun x => (by have x : v.typ = false := x; rw [ht] at x; cases x)
              fz := hl.fz, cl := hl.cl
              ct := fun _ => (by
                show v.opened = true ∧ v.stuck = false
                cases ho : v.opened <;> cases hs : v.stuck <;> cases hc : v.closing <;>
                  simp_all [base, bn])
              dc := hl.dc, dm := hl.dm, du := hl.du, pd := hl.pd }
      · exact h
    · exact h
  | ioPut k =>
    simp only
    split
    · rename_i v hv
      have hl := h.loc k v hv
      unfold Volume.ioPut
      split
      · exact h
      · rename_i hc
        refine h.same hv (fun a => Iff.rfl) ?_
        exact {
          t1 := hl.t1
          t2 := fun x => absurd (hl.t2 x).2.2.2 hc
          fz := hl.fz, cl := hl.cl
          ct := fun _ => hl.ct hc
          dc := hl.dc, dm := hl.dm, du := hl.du, pd := hl.pd }
    · exact h
  | load k j i =>
    simp only
    split
    · rename_i w hk hw
      split
      · rename_i ht
        simp only [Bool.and_eq_true, Bool.not_eq_true'] at ht
        exact h.load i hk hw ht.1 ht.2
      · exact h
    · exact h
  | attach k j i ok =>
    simp only
    split
    · rename_i w hk hw
      split
      · rename_i ht
        simp only [Bool.and_eq_true, Bool.not_eq_true'] at ht
        exact h.attach i ok hk hw ht.1 ht.2
      · exact h
    · exact h

theorem run_snoc (l : List Op) (o : Op) : run (l ++ [o]) = step (run l) o := by
  unfold run; rw [List.foldl_append]; rfl

theorem inv_run (l : List Op) : Inv (run l) := by
  suffices ∀ s, Inv s → Inv (l.foldl step s) from this _ inv_init
  induction l with
  | nil => exact fun s h => h
  | cons o l ih => exact fun s h => ih _ (h.step o)

end Verif.Volume
