import Verif.Model.SeqCutoff
import Verif.Lemma.RbStruct
import Verif.Lemma.Common

/-! # Helpers for the sequential cutoff -/

namespace Verif.SeqCutoff

open Verif.RbTree (Heap upd Inv SInv)

theorem enc_inj {a b a' b' : Bool} {l l' : Nat} (h : l < 2 ^ 64) (h' : l' < 2 ^ 64)
    (e : enc a b l = enc a' b' l') : a = a' ∧ b = b' ∧ l = l' := by
  unfold enc at e
  cases a <;> cases b <;> cases a' <;> cases b' <;> simp at e ⊢ <;> omega

theorem enc_lt {a b : Bool} {l l' : Nat} (h : l ≤ l') : enc a b l ≤ enc a b l' := by
  unfold enc; omega

theorem w64_eq {x : Nat} (h : x < 2 ^ 64) : w64 x = x := Nat.mod_eq_of_lt h

theorem upd_self {α : Type} (f : Nat → α) (i : Nat) (v : α) : upd f i v i = v := by simp [upd]

theorem upd_ne {α : Type} (f : Nat → α) {i k : Nat} (v : α) (h : k ≠ i) : upd f i v k = f k := by
  simp [upd, h]

/-! ## Taking a node out and putting it back with another key -/

theorem mem_erase_range {n s z : Nat} : z ∈ (List.range n).erase s ↔ z < n ∧ z ≠ s := by
  rw [List.nodup_range.mem_erase_iff, List.mem_range, and_comm]

theorem len_erase_range {n s : Nat} : ((List.range n).erase s).length ≤ n := by
  have := (List.erase_sublist (a := s) (l := List.range n)).length_le
  simpa using this

theorem perm_range {n s : Nat} (hs : s < n) :
    ∀ z, z ∈ List.range n ↔ z ∈ s :: (List.range n).erase s := by
  intro z
  rw [List.mem_cons, mem_erase_range, List.mem_range]
  omega

def kkey (v : Stream) : Nat := enc v.valid v.rw v.last

/-- The tree and the rings are intact; the streams of a ring end at the same address and have the
same direction, and if one of them is valid, all were used. -/
def Str (st : Nat → Stream) (h : Heap) (S : List Nat) : Prop :=
  ∃ f : Nat → Bool, SInv (fun z => enc (f z) (st z).rw (st z).last) h S ∧
    (∀ z ∈ S, (st z).valid = true → f z = true) ∧ (∀ z ∈ S, f z = true → (st z).used = true)

theorem remove_st {st h n s} (hi : Str st h (List.range n)) (hs : s < n) :
    ∃ h1, RbTree.remove (n + 3) h s = some h1 ∧ Str st h1 ((List.range n).erase s) ∧
      h1.key = h.key := by
  obtain ⟨f, h1, h2, h3⟩ := hi
  obtain ⟨h', e1, e2, e3⟩ := RbTree.remove_struct h1 (List.mem_range.2 hs) (by simp : _ ≤ n + 3)
  exact ⟨h', e1, ⟨f, e2, fun z hz => h2 z (List.mem_of_mem_erase hz),
    fun z hz => h3 z (List.mem_of_mem_erase hz)⟩, e3⟩

theorem Str.setKey {st h S} (hi : Str st h S) (key : Nat → Nat) : Str st { h with key := key } S := by
  obtain ⟨f, h1, h2⟩ := hi
  exact ⟨f, h1.setKey key, h2⟩

theorem Str.congr {st st' h S} (hi : Str st h S) (hs : ∀ z ∈ S, st' z = st z) : Str st' h S := by
  obtain ⟨f, h1, h2, h3⟩ := hi
  exact ⟨f, h1.congr fun z hz => by rw [hs z hz], fun z hz => by rw [hs z hz]; exact h2 z hz,
    fun z hz => by rw [hs z hz]; exact h3 z hz⟩

theorem insert_st {st h n s} (hi : Str st h ((List.range n).erase s)) (hs : s < n)
    (hk : ∀ z, z < n → h.key z = kkey (st z)) (hb : ∀ z, z < n → (st z).last < 2 ^ 64)
    (hu : (st s).used = true) :
    ∃ h2, RbTree.insert (n + 3) h s = some h2 ∧ Str st h2 (List.range n) ∧ h2.key = h.key := by
  obtain ⟨f, h1, h2, h3⟩ := hi
  have := len_erase_range (n := n) (s := s)
  obtain ⟨h', e1, e2, e3⟩ := RbTree.insert_struct (fuel := n + 3) h1
    (fun h => (mem_erase_range.1 h).2 rfl) (by omega)
  have hm : ∀ z, z ∈ List.range n → z ≠ s → z ∈ (List.range n).erase s :=
    fun z hz hne => mem_erase_range.2 ⟨List.mem_range.1 hz, hne⟩
  have fin : ∀ w : Bool, ((st s).valid = true → w = true) →
      SInv (upd (fun z => enc (f z) (st z).rw (st z).last) s (enc w (st s).rw (st s).last)) h'
        (s :: (List.range n).erase s) → Str st h' (List.range n) := by
    intro w hw hS
    refine ⟨upd f s w, (hS.perm List.nodup_range (perm_range hs)).congr ?_, ?_, ?_⟩
    · intro z _
      by_cases e : z = s
      · subst e; simp [upd]
      · simp [upd, e]
    · intro z hz hv
      by_cases e : z = s
      · subst e; simp [upd]; exact hw hv
      · simp [upd, e]; exact h2 z (hm z hz e) hv
    · intro z hz hv
      by_cases e : z = s
      · subst e; exact hu
      · simp [upd, e] at hv; exact h3 z (hm z hz e) hv
  refine ⟨h', e1, ?_, e2⟩
  rcases e3 with ⟨z, hz, hkz, hS⟩ | hS
  · have hzn := (mem_erase_range.1 hz).1
    rw [hk z hzn, hk s hs] at hkz
    obtain ⟨k1, k2, k3⟩ := enc_inj (hb z hzn) (hb s hs) hkz
    refine fin (f z) (fun hv => h2 z hz (k1.trans hv)) ?_
    rw [← k2, ← k3]; exact hS
  · exact fin true (fun _ => rfl) (hS _)

theorem setKey_st {st h n s} (hi : Str st h (List.range n)) (hs : s < n)
    (hle : RbTree.listEmpty h s = true) (key : Nat → Nat) (v : Stream) (hu : v.used = true) :
    Str (upd st s v) { h with key := key } (List.range n) := by
  obtain ⟨f, h1, h2, h3⟩ := hi
  refine ⟨upd f s true, (RbTree.setKey_struct h1 (List.mem_range.2 hs) hle key (enc true v.rw v.last)).congr ?_,
    ?_, ?_⟩
  · intro z _
    by_cases e : z = s
    · subst e; simp [upd]
    · simp [upd, e]
  · intro z hz
    by_cases e : z = s
    · subst e; simp [upd]
    · simp [upd, e]; exact h2 z hz
  · intro z hz
    by_cases e : z = s
    · subst e; simp [upd, hu]
    · simp [upd, e]; exact h3 z hz

theorem remove_ord {κ h n s} (hi : Inv κ h (List.range n)) (hs : s < n) :
    ∃ h1, RbTree.remove (n + 3) h s = some h1 ∧ Inv κ h1 ((List.range n).erase s) ∧
      h1.key = h.key :=
  RbTree.remove_inv hi (List.mem_range.2 hs) (by simp)

theorem insert_ord {κ h n s} (hi : Inv κ h ((List.range n).erase s)) (hs : s < n)
    (key : Nat → Nat) (hk : ∀ z, z < n → z ≠ s → κ z = key z) :
    ∃ h2, RbTree.insert (n + 3) { h with key := key } s = some h2 ∧
      Inv h2.key h2 (List.range n) ∧ h2.key = key := by
  have h1 : Inv key { h with key := key } ((List.range n).erase s) :=
    (hi.setKey key).congr fun z hz => hk z (mem_erase_range.1 hz).1 (mem_erase_range.1 hz).2
  have := len_erase_range (n := n) (s := s)
  obtain ⟨h2, e1, e2, e3⟩ := RbTree.insert_inv (h := { h with key := key }) (fuel := n + 3) h1
    (fun h => (mem_erase_range.1 h).2 rfl) (by omega)
  exact ⟨h2, e1, e2.perm List.nodup_range (perm_range hs), e3⟩

/-! ## Invariant of one set of streams -/

structure BInv (P : Bool → Nat → Nat → Prop) (n : Nat) (b : Base) : Prop where
  hn : b.n = n
  pos : 0 < n
  key : ∀ z, b.heap.key z = kkey (b.streams z)
  str : Str b.streams b.heap (List.range n)
  nd : b.lru.Nodup
  lru : ∀ z, z ∈ b.lru ↔ z < n
  bnd : ∀ z, z < n → (b.streams z).last < 2 ^ 64
  vu : ∀ z, z < n → (b.streams z).valid = true → (b.streams z).used = true
  trk : ∀ z, z < n → (b.streams z).used = true →
    P (b.streams z).rw (b.streams z).last (b.streams z).bytes

/-- The tree is ordered by the present keys. -/
def Ordered (b : Base) : Prop := Inv b.heap.key b.heap (List.range b.n)

theorem BInv.mono {P P' : Bool → Nat → Nat → Prop} {n b} (h : BInv P n b)
    (hp : ∀ rw l y, P rw l y → P' rw l y) : BInv P' n b :=
  ⟨h.hn, h.pos, h.key, h.str, h.nd, h.lru, h.bnd, h.vu, fun z hz hu => hp _ _ _ (h.trk z hz hu)⟩

theorem mem_moveTail {l : List Nat} (hn : l.Nodup) {s : Nat} (hs : s ∈ l) :
    (moveTail l s).Nodup ∧ ∀ z, z ∈ moveTail l s ↔ z ∈ l := by
  unfold moveTail
  refine ⟨?_, fun z => ?_⟩
  · rw [List.nodup_append]
    refine ⟨hn.erase s, by simp, ?_⟩
    intro a ha b hb
    rw [List.mem_singleton] at hb
    subst hb
    exact ((hn.mem_erase_iff).1 ha).1
  · rw [List.mem_append, hn.mem_erase_iff, List.mem_singleton]
    constructor
    · rintro (h | rfl)
      · exact h.2
      · exact hs
    · intro h
      by_cases e : z = s
      · exact Or.inr e
      · exact Or.inl ⟨e, h⟩

theorem mem_moveHead {l : List Nat} (hn : l.Nodup) {s : Nat} (hs : s ∈ l) :
    (moveHead l s).Nodup ∧ ∀ z, z ∈ moveHead l s ↔ z ∈ l := by
  unfold moveHead
  refine ⟨?_, fun z => ?_⟩
  · rw [List.nodup_cons]
    exact ⟨fun h => ((hn.mem_erase_iff).1 h).1 rfl, hn.erase s⟩
  · rw [List.mem_cons, hn.mem_erase_iff]
    constructor
    · rintro (rfl | h)
      · exact hs
      · exact h.2
    · intro h
      by_cases e : z = s
      · exact Or.inl e
      · exact Or.inr ⟨e, h⟩

/-- The result of an exchange of the contents of one stream. -/
theorem BInv.assemble {P P' : Bool → Nat → Nat → Prop} {n b s v h2 l2} (hb : BInv P n b)
    (hp : ∀ rw l y, P rw l y → P' rw l y)
    (hbn : v.last < 2 ^ 64) (hvu : v.valid = true → v.used = true)
    (ht : v.used = true → P' v.rw v.last v.bytes) (hk : h2.key = upd b.heap.key s (kkey v))
    (hst : Str (upd b.streams s v) h2 (List.range n))
    (hl : l2.Nodup ∧ ∀ z, z ∈ l2 ↔ z ∈ b.lru) :
    BInv P' n { b with heap := h2, streams := upd b.streams s v, lru := l2 } := by
  refine ⟨hb.hn, hb.pos, ?_, hst, hl.1, fun z => (hl.2 z).trans (hb.lru z), ?_, ?_, ?_⟩
  · intro z
    simp only [hk]
    by_cases e : z = s
    · subst e; simp [upd_self]
    · rw [upd_ne _ _ e, upd_ne _ _ e, hb.key z]
  · intro z hz
    simp only
    by_cases e : z = s
    · subst e; rw [upd_self]; exact hbn
    · rw [upd_ne _ _ e]; exact hb.bnd z hz
  · intro z hz
    simp only
    by_cases e : z = s
    · subst e; rw [upd_self]; exact hvu
    · rw [upd_ne _ _ e]; exact hb.vu z hz
  · intro z hz
    simp only
    by_cases e : z = s
    · subst e; rw [upd_self]; exact ht
    · rw [upd_ne _ _ e]; intro h; exact hp _ _ _ (hb.trk z hz h)

theorem listFind_mem (b : Base) (x : Nat) : ∀ (ds : List Nat), ds ≠ [] →
    ∃ d ∈ ds, listFind b x ds = some d := by
  have key : ∀ (ds : List Nat) (m : Nat), ∃ d ∈ m :: ds, ds.foldl (fun m s =>
      match m with
      | none => some s
      | some x => if (b.streams s).bytes > (b.streams x).bytes then some s else some x) (some m) = some d := by
    intro ds
    induction ds with
    | nil => intro m; exact ⟨m, by simp, rfl⟩
    | cons a ds ih =>
      intro m
      simp only [List.foldl_cons]
      split
      · obtain ⟨d, hd, e⟩ := ih a
        exact ⟨d, List.mem_cons_of_mem _ hd, e⟩
      · obtain ⟨d, hd, e⟩ := ih m
        refine ⟨d, ?_, e⟩
        rcases List.mem_cons.1 hd with rfl | hd
        · simp
        · simp [hd]
  intro ds hds
  cases ds with
  | nil => exact absurd rfl hds
  | cons a ds =>
    obtain ⟨d, hd, e⟩ := key ds a
    exact ⟨d, hd, e⟩

/-- What a lookup finds was used for a stream of the direction that ends at the address. -/
theorem lookup_sound {P n b} (hb : BInv P n b) (rw : Bool) {addr : Nat} (ha : addr < 2 ^ 64) :
    lookup b rw addr = some none ∨
    ∃ s, s < n ∧ lookup b rw addr = some (some s) ∧ (b.streams s).used = true ∧
      (b.streams s).rw = rw ∧ (b.streams s).last = addr := by
  unfold lookup fuel
  rw [hb.hn]
  obtain ⟨f, hS, hf1, hf2⟩ := hb.str
  rcases RbTree.find_struct (K := enc true rw addr) (fuel := n + 3) (listFind b) hS (by simp) with
    ⟨z, ds, hz, hk, hd, e⟩ | e
  · right
    have hzn := List.mem_range.1 hz
    rw [hb.key z] at hk
    obtain ⟨e1, e2, e3⟩ := enc_inj (hb.bnd z hzn) ha hk
    have zu := hb.vu z hzn e1
    by_cases hds : ds = []
    · rw [if_pos hds] at e
      exact ⟨z, hzn, e, zu, e2, e3⟩
    · rw [if_neg hds] at e
      obtain ⟨d, hdm, e'⟩ := listFind_mem b z ds hds
      obtain ⟨d1, d2⟩ := hd d hdm
      have hdn := List.mem_range.1 d1
      obtain ⟨f1, f2, f3⟩ := enc_inj (hb.bnd d hdn) (hb.bnd z hzn) d2
      exact ⟨d, hdn, e.trans (congrArg some e'), hf2 d d1 (f1.trans (hf1 z hz e1)), f2.trans e2,
        f3.trans e3⟩
  · exact Or.inl e

theorem insert_at {P n b s v h1} (hb : BInv P n b) (hi : Str b.streams h1 ((List.range n).erase s))
    (hs : s < n) (hv : v.last < 2 ^ 64) (hu : v.used = true) :
    ∃ h2, RbTree.insert (n + 3) { h1 with key := upd b.heap.key s (kkey v) } s = some h2 ∧
      Str (upd b.streams s v) h2 (List.range n) ∧ h2.key = upd b.heap.key s (kkey v) := by
  have h1' : Str (upd b.streams s v) { h1 with key := upd b.heap.key s (kkey v) }
      ((List.range n).erase s) :=
    (hi.setKey _).congr fun z hz => upd_ne _ _ (mem_erase_range.1 hz).2
  refine insert_st h1' hs ?_ ?_ (by rw [upd_self]; exact hu)
  · intro z _
    simp only
    by_cases e : z = s
    · subst e; simp [upd_self]
    · rw [upd_ne _ _ e, upd_ne _ _ e, hb.key z]
  · intro z hz
    by_cases e : z = s
    · subst e; rw [upd_self]; exact hv
    · rw [upd_ne _ _ e]; exact hb.bnd z hz

/-! ## The update of one set of streams -/

theorem update_binv {P P' : Bool → Nat → Nat → Prop} {n b} (hb : BInv P n b) {addr len : Nat}
    (rw : Bool) (ins : Bool) (ha : addr + len < 2 ^ 64)
    (hp : ∀ rw l y, P rw l y → P' rw l y) (hle : ∀ rw l y, P rw l y → y ≤ l)
    (hext : ∀ y, P rw addr y → P' rw (addr + len) (y + len)) (hnew : P' rw (addr + len) len) :
    ∃ b' o, baseUpdate b addr len rw ins = some (b', o) ∧ BInv P' n b' ∧
      (ins = true → o ≠ none) ∧ (o = none → b' = b) ∧
      (∀ s, o = some s → s < n ∧ (b'.streams s).used = true) ∧
      (∀ z, (b.streams z).used = true → (b'.streams z).used = true) := by
  have hlt : addr < 2 ^ 64 := by omega
  unfold baseUpdate
  rcases lookup_sound hb rw hlt with e | ⟨s, hs, e, hu, hrw, hlast⟩
  · rw [e]
    simp only
    cases ins with
    | false => exact ⟨b, none, by simp, hb.mono hp, by simp, by simp, by simp, fun _ h => h⟩
    | true =>
      simp only [if_true]
      cases hl : b.lru with
      | nil => have := (hb.lru 0).2 hb.pos; rw [hl] at this; cases this
      | cons s rest =>
        have hsl : s ∈ b.lru := by simp [hl]
        have hs : s < n := (hb.lru s).1 hsl
        obtain ⟨h1, r1, r2, r3⟩ := remove_st hb.str hs
        have hv : (fresh addr len rw).last < 2 ^ 64 := by simp only [fresh, w64_eq ha]; exact ha
        have hput : (put { b with heap := h1 } s (fresh addr len rw)).heap =
            { h1 with key := upd b.heap.key s (kkey (fresh addr len rw)) } := by
          simp only [put, r3]; rfl
        obtain ⟨h2, i1, i2, i3⟩ := insert_at hb r2 hs hv rfl
        refine ⟨_, _, ?_, hb.assemble (s := s) (v := fresh addr len rw) (h2 := h2) hp hv (fun _ => rfl)
          (fun _ => by simp only [fresh, w64_eq ha]; exact hnew) i3 i2 (mem_moveTail hb.nd hsl),
          fun _ => Option.some_ne_none s, fun h => absurd h (Option.some_ne_none s), ?_, ?_⟩
        · rw [← hb.hn] at r1 i1
          simp only [treeRemove, fuel, r1, Option.map_some, Option.bind_some, treeInsert, hput]
          rw [show (put { b with heap := h1 } s (fresh addr len rw)).n = b.n from rfl, i1]
          simp [put]
        · rintro z ⟨⟩
          exact ⟨hs, by simp [upd_self, fresh]⟩
        · intro z hz
          simp only
          by_cases e : z = s
          · subst e; simp [upd_self, fresh]
          · rw [upd_ne _ _ e]; exact hz
  · rw [e]
    simp only
    obtain ⟨can, hcan, hle2⟩ := RbTree.canUpdate_free (n := s) (K := enc true rw (w64 (addr + len)))
      (fuel := n + 3) hb.str.choose_spec.1 (by simp)
    simp only [fuel, hb.hn, hcan]
    have hPold : P rw addr (b.streams s).bytes := by
      have := hb.trk s hs hu; rw [hrw, hlast] at this; exact this
    have hby := hle _ _ _ hPold
    have hsl : s ∈ b.lru := (hb.lru s).2 hs
    obtain ⟨v, hv⟩ : ∃ v, v = extend (b.streams s) addr len := ⟨_, rfl⟩
    have v1 : v.last = addr + len := by rw [hv]; exact w64_eq ha
    have v2 : v.bytes = (b.streams s).bytes + len := by rw [hv]; exact w64_eq (by omega)
    have v3 : v.rw = rw := by rw [hv]; exact hrw
    have v4 : v.used = true := by rw [hv]; exact hu
    have v5 : v.valid = (b.streams s).valid := by rw [hv]; rfl
    have hvb : v.last < 2 ^ 64 := by rw [v1]; exact ha
    have hvt : v.used = true → P' v.rw v.last v.bytes := by
      intro _; rw [v1, v2, v3]; exact hext _ hPold
    rw [← hv]
    have fin : ∀ h2, h2.key = upd b.heap.key s (kkey v) →
        Str (upd b.streams s v) h2 (List.range n) →
        ∃ b' o, some (({ b with heap := h2, streams := upd b.streams s v, lru := moveTail b.lru s } : Base), some s) =
          some (b', o) ∧ BInv P' n b' ∧ (ins = true → o ≠ none) ∧ (o = none → b' = b) ∧
          (∀ s, o = some s → s < n ∧ (b'.streams s).used = true) ∧
          (∀ z, (b.streams z).used = true → (b'.streams z).used = true) := by
      intro h2 hk hst
      refine ⟨_, _, rfl, hb.assemble (s := s) (v := v) hp hvb (fun _ => v4) hvt hk hst
        (mem_moveTail hb.nd hsl), fun _ => by simp, by simp, ?_, ?_⟩
      · rintro z ⟨⟩
        exact ⟨hs, by simp [upd_self, v4]⟩
      · intro z hz
        simp only
        by_cases e : z = s
        · subst e; rw [upd_self]; exact v4
        · rw [upd_ne _ _ e]; exact hz
    cases can with
    | true =>
      simp only [if_true, Option.map_some]
      refine fin { b.heap with key := upd b.heap.key s (kkey v) } rfl ?_
      exact setKey_st hb.str hs (hle2 rfl) _ v v4
    | false =>
      obtain ⟨h1, r1, r2, r3⟩ := remove_st (hb.str.setKey (upd b.heap.key s (kkey v))) hs
      have r4 : h1.key = upd b.heap.key s (kkey v) := r3
      obtain ⟨h2, i1, i2, i3⟩ := insert_at hb r2 hs hvb v4
      have hh1 : { h1 with key := upd b.heap.key s (kkey v) } = h1 := by
        rw [← r4]
      rw [hh1] at i1
      have hb2 : { b.heap with key := upd b.heap.key s (kkey v) } = (put b s v).heap := rfl
      rw [hb2] at r1
      rw [← hb.hn] at r1 i1
      simp only [treeRemove, treeInsert, fuel, show (put b s v).n = b.n from rfl, r1, Option.map_some, Option.bind_some, i1,
        Bool.false_eq_true, if_false]
      exact fin h2 i3 i2

/-! ## Promotion -/

theorem promote_binv {P P' Q : Bool → Nat → Nat → Prop} {nd ns dst src s} (hd : BInv P nd dst)
    (hsrc : BInv Q ns src) (hs : s < ns) (hu : (src.streams s).used = true)
    (hp : ∀ rw l y, P rw l y → P' rw l y) (hq : ∀ rw l y, Q rw l y → P' rw l y) :
    ∃ dst' src', basePromote dst src s = some (dst', src') ∧ BInv P' nd dst' ∧ BInv Q ns src' ∧
      (∀ z, (dst.streams z).used = true → (dst'.streams z).used = true) ∧
      (∀ z, (src.streams z).used = true → (src'.streams z).used = true) := by
  unfold basePromote
  cases hl : dst.lru with
  | nil => have := (hd.lru 0).2 hd.pos; rw [hl] at this; cases this
  | cons d rest =>
    have hdl : d ∈ dst.lru := by simp [hl]
    have hdn : d < nd := (hd.lru d).1 hdl
    obtain ⟨v, ev⟩ : ∃ v, v = { src.streams s with valid := true } := ⟨_, rfl⟩
    have v1 : v.last < 2 ^ 64 := by rw [ev]; exact hsrc.bnd s hs
    have v2 : v.used = true := by rw [ev]; exact hu
    have v3 : P' v.rw v.last v.bytes := by rw [ev]; exact hq _ _ _ (hsrc.trk s hs hu)
    obtain ⟨h1, r1, r2, r3⟩ := remove_st hd.str hdn
    obtain ⟨h2, i1, i2, i3⟩ := insert_at hd r2 hdn v1 v2
    have hput : (put { dst with heap := h1 } d v).heap =
        { h1 with key := upd dst.heap.key d (kkey v) } := by
      simp only [put, r3]; rfl
    rw [← ev]
    refine ⟨_, { put src s { src.streams s with valid := false } with lru := moveHead src.lru s }, ?_,
      hd.assemble (s := d) (v := v) (h2 := h2) hp v1 (fun _ => v2) (fun _ => v3) i3 i2
      (mem_moveTail hd.nd hdl), ?_, ?_, ?_⟩
    · rw [← hd.hn] at r1 i1
      simp only [treeRemove, fuel, r1, Option.map_some, Option.bind_some, treeInsert, hput]
      rw [show (put { dst with heap := h1 } d v).n = dst.n from rfl, i1]
      simp [put]
    · refine hsrc.assemble (s := s) (v := { src.streams s with valid := false })
        (h2 := { src.heap with key := upd src.heap.key s (kkey { src.streams s with valid := false }) })
        (fun _ _ _ h => h) (hsrc.bnd s hs) (fun h => by cases h) (fun _ => hsrc.trk s hs hu) rfl ?_
        (mem_moveHead hsrc.nd ((hsrc.lru s).2 hs))
      obtain ⟨f, f1, f2, f3⟩ := hsrc.str
      refine ⟨f, (f1.setKey _).congr ?_, ?_, ?_⟩
      · intro z _
        by_cases e : z = s
        · subst e; simp [upd_self]
        · simp only [upd_ne _ _ e]
      · intro z hz
        by_cases e : z = s
        · subst e; simp [upd_self]
        · rw [upd_ne _ _ e]; exact f2 z hz
      · intro z hz
        by_cases e : z = s
        · subst e; intro _; simp [upd_self, hu]
        · rw [upd_ne _ _ e]; exact f3 z hz
    · intro z hz
      simp only
      by_cases e : z = d
      · subst e; rw [upd_self]; exact v2
      · rw [upd_ne _ _ e]; exact hz
    · intro z hz
      simp only [put]
      by_cases e : z = s
      · subst e; rw [upd_self]; exact hz
      · rw [upd_ne _ _ e]; exact hz

/-! ## Order -/

/-- In an ordered tree a lookup finds a stream if there is one. -/
theorem lookup_exact {P n b} (hb : BInv P n b) (ho : Ordered b) (rw : Bool) {addr : Nat}
    (ha : addr < 2 ^ 64) :
    (lookup b rw addr = some none ∧
      ∀ z, z < n → ¬((b.streams z).valid = true ∧ (b.streams z).rw = rw ∧ (b.streams z).last = addr)) ∨
    ∃ s, s < n ∧ lookup b rw addr = some (some s) ∧ (b.streams s).valid = true ∧
      (b.streams s).rw = rw ∧ (b.streams s).last = addr := by
  unfold Ordered at ho
  unfold lookup fuel
  rw [hb.hn] at ho ⊢
  rcases RbTree.find_inv (K := enc true rw addr) (fuel := n + 3) (listFind b) ho (by simp) with
    ⟨z, ds, hz, hk, hd, _, e⟩ | ⟨hk, e⟩
  · right
    have main : ∀ d ∈ z :: ds, d < n ∧ (b.streams d).valid = true ∧ (b.streams d).rw = rw ∧
        (b.streams d).last = addr := by
      intro d hdm
      obtain ⟨d1, d2⟩ := (hd d).1 hdm
      have hdn := List.mem_range.1 d1
      rw [hb.key d] at d2
      exact ⟨hdn, enc_inj (hb.bnd d hdn) ha d2⟩
    by_cases hds : ds = []
    · rw [if_pos hds] at e
      obtain ⟨a, b⟩ := main z (by simp)
      exact ⟨z, a, e, b⟩
    · rw [if_neg hds] at e
      obtain ⟨d, hdm, e'⟩ := listFind_mem b z ds hds
      obtain ⟨a, b⟩ := main d (by simp [hdm])
      exact ⟨d, a, e.trans (congrArg some e'), b⟩
  · left
    refine ⟨e, ?_⟩
    rintro z hz ⟨h1, h2, h3⟩
    apply hk z (List.mem_range.2 hz)
    rw [hb.key z, kkey, h1, h2, h3]

/-- The effect of an update when the tree is ordered, and it stays ordered. -/
theorem update_ordered {P n b} (hb : BInv P n b) (ho : Ordered b) {addr len : Nat} {rw ins : Bool}
    (ha : addr + len < 2 ^ 64) {b' o} (e : baseUpdate b addr len rw ins = some (b', o)) :
    Ordered b' := by
  have hlt : addr < 2 ^ 64 := by omega
  unfold baseUpdate at e
  rcases lookup_exact hb ho rw hlt with ⟨e1, _⟩ | ⟨s, hs, e1, hv, hrw, hlast⟩
  · rw [e1] at e
    simp only at e
    cases ins with
    | false => simp at e; obtain ⟨rfl, _⟩ := e; exact ho
    | true =>
      simp only [if_true] at e
      cases hl : b.lru with
      | nil => rw [hl] at e; cases e
      | cons s rest =>
        rw [hl] at e
        have hs : s < b.n := by rw [hb.hn]; exact (hb.lru s).1 (by simp [hl])
        unfold Ordered at ho ⊢
        obtain ⟨h1, r1, r2, r3⟩ := remove_ord ho hs
        obtain ⟨h2, i1, i2, i3⟩ := insert_ord r2 hs (upd b.heap.key s (kkey (fresh addr len rw)))
          (fun z _ hne => (upd_ne _ _ hne).symm)
        have hput : (put { b with heap := h1 } s (fresh addr len rw)).heap =
            { h1 with key := upd b.heap.key s (kkey (fresh addr len rw)) } := by
          simp only [put, r3]; rfl
        simp only [treeRemove, fuel, r1, Option.map_some, Option.bind_some, treeInsert, hput] at e
        rw [show (put { b with heap := h1 } s (fresh addr len rw)).n = b.n from rfl, i1] at e
        simp only [Option.map_some, Option.some.injEq, Prod.mk.injEq] at e
        obtain ⟨rfl, _⟩ := e
        exact i2
  · rw [e1] at e
    simp only at e
    obtain ⟨v, ev⟩ : ∃ v, v = extend (b.streams s) addr len := ⟨_, rfl⟩
    have hk : kkey v = enc true rw (w64 (addr + len)) := by rw [ev, kkey, extend]; simp only [hv, hrw]
    have hs' : s < b.n := by rw [hb.hn]; exact hs
    rw [← ev, ← hk] at e
    unfold Ordered at ho ⊢
    cases hc : RbTree.canUpdate (fuel b) b.heap s (kkey v) with
    | none => rw [hc] at e; cases e
    | some can =>
      rw [hc] at e
      cases can with
      | true =>
        simp only [if_true, Option.map_some, Option.some.injEq, Prod.mk.injEq] at e
        obtain ⟨rfl, _⟩ := e
        have hkle : b.heap.key s ≤ kkey v := by
          rw [hb.key s, hk]
          rw [show kkey (b.streams s) = enc true rw addr by rw [kkey, hv, hrw, hlast], w64_eq ha]
          exact enc_lt (by omega)
        exact RbTree.canUpdate_inv ho (List.mem_range.2 hs') hkle
          (by rw [List.length_range]; exact Nat.le_add_right _ _) hc
      | false =>
        obtain ⟨h1, r1, r2, r3⟩ := remove_ord (ho.setKey (upd b.heap.key s (kkey v))) hs'
        have r4 : h1.key = upd b.heap.key s (kkey v) := r3
        obtain ⟨h2, i1, i2, i3⟩ := insert_ord r2 hs' (upd b.heap.key s (kkey v))
          (fun z _ hne => (upd_ne _ _ hne).symm)
        have hh1 : { h1 with key := upd b.heap.key s (kkey v) } = h1 := by rw [← r4]
        rw [hh1] at i1
        have hb2 : { b.heap with key := upd b.heap.key s (kkey v) } = (put b s v).heap := rfl
        rw [hb2] at r1
        simp only [treeRemove, treeInsert, fuel, show (put b s v).n = b.n from rfl, r1,
          Option.map_some, Option.bind_some, i1, Bool.false_eq_true, if_false, Option.some.injEq,
          Prod.mk.injEq] at e
        obtain ⟨rfl, _⟩ := e
        exact i2

/-- The destination of a promotion stays ordered. -/
theorem promote_ordered {P nd dst src s} (hd : BInv P nd dst) (ho : Ordered dst) {dst' src'}
    (e : basePromote dst src s = some (dst', src')) : Ordered dst' := by
  unfold basePromote at e
  cases hl : dst.lru with
  | nil => rw [hl] at e; cases e
  | cons d rest =>
    rw [hl] at e
    simp only at e
    have hs : d < dst.n := by rw [hd.hn]; exact (hd.lru d).1 (by simp [hl])
    obtain ⟨v, ev⟩ : ∃ v, v = { src.streams s with valid := true } := ⟨_, rfl⟩
    rw [← ev] at e
    unfold Ordered at ho ⊢
    obtain ⟨h1, r1, r2, r3⟩ := remove_ord ho hs
    obtain ⟨h2, i1, i2, i3⟩ := insert_ord r2 hs (upd dst.heap.key d (kkey v))
      (fun z _ hne => (upd_ne _ _ hne).symm)
    have hput : (put { dst with heap := h1 } d v).heap =
        { h1 with key := upd dst.heap.key d (kkey v) } := by
      simp only [put, r3]; rfl
    simp only [treeRemove, fuel, r1, Option.map_some, Option.bind_some, treeInsert, hput] at e
    rw [show (put { dst with heap := h1 } d v).n = dst.n from rfl, i1] at e
    simp only [Option.map_some, Option.some.injEq, Prod.mk.injEq] at e
    obtain ⟨rfl, _⟩ := e
    exact i2

/-- One insertion after a promotion of a stream takes the promoted stream out of the tree, which is
ordered again. -/
theorem heal {Q ns dst src s dst' src'} (hsrc : BInv Q ns src) (ho : Ordered src) (hs : s < ns)
    (e : basePromote dst src s = some (dst', src')) {addr len : Nat} {rw : Bool}
    (hmiss : lookup src' rw addr = some none) :
    ∃ b' o, baseUpdate src' addr len rw true = some (b', o) ∧ Ordered b' := by
  have hsrc' : src' = { put src s { src.streams s with valid := false } with
      lru := moveHead src.lru s } := by
    unfold basePromote at e
    split at e
    · cases e
    · simp only [Option.bind_eq_some_iff, Option.map_eq_some_iff, Prod.mk.injEq] at e
      obtain ⟨_, _, _, _, _, h⟩ := e
      exact h.symm
  unfold baseUpdate
  rw [hmiss]
  have hs' : s < src'.n := by rw [hsrc']; simp only [put]; rw [hsrc.hn]; exact hs
  have hl : src'.lru = s :: src.lru.erase s := by rw [hsrc']; rfl
  simp only [hl, if_true]
  have ho' : Inv src.heap.key src'.heap (List.range src'.n) := by
    rw [hsrc']; exact ho.setKey _
  obtain ⟨h1, r1, r2, r3⟩ := remove_ord ho' hs'
  have hkey : ∀ z, z ≠ s → src'.heap.key z = src.heap.key z := by
    intro z hz; rw [hsrc']; exact upd_ne _ _ hz
  obtain ⟨h2, i1, i2, i3⟩ := insert_ord r2 hs' (upd src'.heap.key s (kkey (fresh addr len rw)))
    (fun z _ hne => by rw [upd_ne _ _ hne, hkey z hne])
  have hput : (put { src' with heap := h1 } s (fresh addr len rw)).heap =
      { h1 with key := upd src'.heap.key s (kkey (fresh addr len rw)) } := by
    simp only [put, r3]; rfl
  simp only [treeRemove, fuel, r1, Option.map_some, Option.bind_some, treeInsert, hput]
  rw [show (put { src' with heap := h1 } s (fresh addr len rw)).n = src'.n from rfl, i1]
  exact ⟨_, _, rfl, i2⟩

/-! ## Effect of an update -/

/-- Which stream an update changes, and how. -/
theorem update_effect {b : Base} {addr len : Nat} {rw ins : Bool} {b' o}
    (e : baseUpdate b addr len rw ins = some (b', o)) :
    (o = none ∧ b' = b ∧ ins = false ∧ lookup b rw addr = some none) ∨
    ∃ s v, o = some s ∧ b'.streams = upd b.streams s v ∧ b'.lru = moveTail b.lru s ∧ b'.n = b.n ∧
      ((lookup b rw addr = some (some s) ∧ v = extend (b.streams s) addr len) ∨
       (lookup b rw addr = some none ∧ v = fresh addr len rw ∧ ∃ l, b.lru = s :: l)) := by
  have tr : ∀ {b b' : Base} {s}, treeRemove b s = some b' → b'.streams = b.streams ∧ b'.lru = b.lru ∧ b'.n = b.n := by
    intro b b' s h
    simp only [treeRemove, Option.map_eq_some_iff] at h
    obtain ⟨_, _, rfl⟩ := h
    exact ⟨rfl, rfl, rfl⟩
  have ti : ∀ {b b' : Base} {s}, treeInsert b s = some b' → b'.streams = b.streams ∧ b'.lru = b.lru ∧ b'.n = b.n := by
    intro b b' s h
    simp only [treeInsert, Option.map_eq_some_iff] at h
    obtain ⟨_, _, rfl⟩ := h
    exact ⟨rfl, rfl, rfl⟩
  unfold baseUpdate at e
  split at e
  · cases e
  · next s hl =>
    split at e
    · cases e
    · next can hc =>
      simp only [Option.map_eq_some_iff, Prod.mk.injEq] at e
      obtain ⟨b2, e2, rfl, rfl⟩ := e
      right
      have hb2 : b2.streams = upd b.streams s (extend (b.streams s) addr len) ∧ b2.lru = b.lru ∧ b2.n = b.n := by
        cases can with
        | true => simp only [if_true, Option.some.injEq] at e2; subst e2; exact ⟨rfl, rfl, rfl⟩
        | false =>
          simp only [Bool.false_eq_true, if_false, Option.bind_eq_some_iff] at e2
          obtain ⟨b3, e3, e4⟩ := e2
          obtain ⟨a1, a2, a3⟩ := tr e3
          obtain ⟨c1, c2, c3⟩ := ti e4
          exact ⟨c1.trans a1, c2.trans a2, c3.trans a3⟩
      exact ⟨s, _, rfl, hb2.1, by simp only; rw [hb2.2.1], hb2.2.2, Or.inl ⟨hl, rfl⟩⟩
  · next hl =>
    cases ins with
    | false =>
      simp only [Bool.false_eq_true, if_false, Option.some.injEq, Prod.mk.injEq] at e
      exact Or.inl ⟨e.2.symm, e.1.symm, rfl, hl⟩
    | true =>
      simp only [if_true] at e
      split at e
      · cases e
      · next s l hlru =>
        simp only [Option.bind_eq_some_iff, Option.map_eq_some_iff, Prod.mk.injEq] at e
        obtain ⟨b3, e3, b4, e4, rfl, rfl⟩ := e
        obtain ⟨a1, a2, a3⟩ := tr e3
        obtain ⟨c1, c2, c3⟩ := ti e4
        right
        refine ⟨s, fresh addr len rw, rfl, ?_, ?_, ?_, Or.inr ⟨hl, rfl, l, hlru⟩⟩
        · simp only [c1, put, a1]
        · simp only [c2, put, a2, hlru]
        · simp only [c3, put, a3]

/-! ## Initial streams -/

theorem insertAll_spec {n : Nat} {st : Nat → Stream} {lru : List Nat} :
    ∀ (ss : List Nat) (S : List Nat) (h : Heap), Inv h.key h S →
      ss.Nodup → (∀ z ∈ ss, z ∉ S) → S.length + ss.length ≤ n →
      ∃ h', insertAll ⟨h, st, lru, n⟩ ss = some ⟨h', st, lru, n⟩ ∧
        Inv h'.key h' (ss.reverse ++ S) ∧ h'.key = h.key
  | [], S, h, hi, _, _, _ => ⟨h, rfl, by simpa using hi, rfl⟩
  | s :: ss, S, h, hi, hn, hd, hl => by
    rw [List.nodup_cons] at hn
    simp only [List.length_cons] at hl
    obtain ⟨h1, e1, i1, k1⟩ := RbTree.insert_inv (fuel := n + 3) hi (hd s (by simp)) (by omega)
    obtain ⟨h2, e2, i2, k2⟩ := insertAll_spec (n := n) (st := st) (lru := lru) ss (s :: S) h1 i1 hn.2
      (by
        intro z hz hm
        rcases List.mem_cons.1 hm with rfl | hm
        · exact hn.1 hz
        · exact hd z (by simp [hz]) hm)
      (by simp only [List.length_cons]; omega)
    refine ⟨h2, ?_, by simpa using i2, k2.trans k1⟩
    simp only [insertAll, treeInsert, fuel, e1, Option.map_some, Option.bind_some, e2]

theorem init_binv (P : Bool → Nat → Nat → Prop) (h : Heap) {n : Nat} (hn : 0 < n)
    (hb : 4096 * n ≤ 2 ^ 64) :
    ∃ b, baseInit h n = some b ∧ BInv P n b ∧ Ordered b ∧ ∀ z, (b.streams z) = stream0 z := by
  have h0 : Inv (fun i => enc false false (4096 * i))
      { RbTree.init h with key := fun i => enc false false (4096 * i) } [] := by
    refine ⟨List.nodup_nil, .leaf, ⟨⟨⟨none, none, ⟨rfl, rfl⟩, rfl⟩, List.nodup_nil⟩,
      ⟨0, trivial, rfl, by simp [RbTree.rootRed]⟩, List.Pairwise.nil, ?_, ?_, ?_⟩, ?_⟩ <;>
      simp [RbTree.T.toList, RbTree.Holds]
  obtain ⟨h', e, i, k⟩ := insertAll_spec (n := n) (st := stream0) (lru := List.range n) (List.range n) []
    { RbTree.init h with key := fun i => enc false false (4096 * i) } h0 List.nodup_range (by simp) (by simp)
  have i' : Inv h'.key h' (List.range n) := i.perm List.nodup_range (by simp)
  have k' : ∀ z, h'.key z = enc false false (4096 * z) := fun z => by rw [k]
  refine ⟨_, e, ⟨rfl, hn, k', ?_, List.nodup_range, by simp, ?_, ?_, ?_⟩, i', fun _ => rfl⟩
  · refine ⟨fun _ => false, i'.struct ?_, ?_, ?_⟩
    · intro a _ b _ hab
      rw [k', k'] at hab
      exact hab
    · intro z _ h; simp [stream0] at h
    · intro z _ h; cases h
  · intro z hz; simp only [stream0]; omega
  · intro z _ h; simp [stream0] at h
  · intro z _ h; simp [stream0] at h

end Verif.SeqCutoff
