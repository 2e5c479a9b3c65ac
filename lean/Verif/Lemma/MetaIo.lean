import Verif.Model.MetaIo
import Verif.Lemma.Common

/-! The invariant of the model of the metadata transfers. -/

namespace Verif.MetaIo

/-! ### What a phase holds -/

/-- Counted in `req_remaining`. -/
def holdsRem : Ph → Bool
  | .begin | .check _ _ | .take _ _ | .drop _ _ | .lock _ | .wait _ | .io _ | .err _ _ | .lerr _ _ => true
  | .post _ _ ended => !ended
  | .fin lost | .del lost | .done lost => lost.isSome
  | _ => false

/-- Counted in `req_active`. -/
def holdsAct : Ph → Bool
  | .idle | .begin | .del _ | .done _ => false
  | _ => true

def isCall : Ph → Bool
  | .call _ _ => true
  | _ => false

def isDel : Ph → Bool
  | .del _ => true
  | _ => false

def isErr : Ph → Bool
  | .err _ _ | .lerr _ _ => true
  | _ => false

/-- Part `k` was taken and is not yet transferred. -/
def pend (k : Nat) : Ph → Bool
  | .post _ o ended => o = some k && !ended
  | .lock j | .wait j | .lerr j _ => j = k
  | .fin lost | .del lost | .done lost => lost = some k
  | _ => false

def isIo (k : Nat) : Ph → Bool
  | .io j => j = k
  | _ => false

/-- The buffer was freed. -/
def isFreed : Ph → Bool
  | .post _ _ ended => ended
  | .fin lost | .del lost | .done lost => lost.isNone
  | _ => false

def mainRem : Main → Nat
  | .start _ => 1
  | _ => 0

def mainAct : Main → Nat
  | .start _ | .call | .fin => 1
  | _ => 0

def mainCall (m : Main) : Nat := if m = .call then 1 else 0
def mainDel (m : Main) : Nat := if m = .del then 1 else 0

/-- How many requests the calling thread has passed. -/
def pos (n : Nat) : Main → Nat
  | .start i => i
  | _ => n

/-- What holds of one request. -/
def Loc (n nx : Nat) (er : Int) (errs : List Int) (i : Nat) : Ph → Prop
  | .idle => True
  | .begin => True
  | .check fs o | .take fs o =>
    (fs = true → o = none ∧ (er ≠ 0 ∨ i ≤ nx)) ∧ (fs = false → ∃ k, o = some k ∧ i ≤ k ∧ k < nx ∧ k < n)
  | .drop fs o | .call fs o | .free fs o | .post fs o true =>
    (er ≠ 0 ∨ n ≤ nx) ∧ (∀ k, o = some k → fs = false ∧ er ≠ 0)
  | .post _ o false => ∃ k, o = some k ∧ i ≤ k ∧ k < nx ∧ k < n
  | .lock k | .wait k | .io k => i ≤ k ∧ k < nx ∧ k < n
  | .err k v | .lerr k v => (i ≤ k ∧ k < nx ∧ k < n) ∧ v ≠ 0 ∧ v ∈ errs
  | .fin lost | .del lost | .done lost =>
    match lost with
    | none => er ≠ 0 ∨ n ≤ nx
    | some k => er ≠ 0 ∧ i ≤ k ∧ k < nx ∧ k < n

/-- The request is at `take` for the first time only if this holds. -/
def TakeOk (nx i : Nat) : Ph → Prop
  | .take true _ => i ≤ nx
  | _ => True

theorem Loc.mono {n nx nx' : Nat} {er er' : Int} {errs errs' : List Int} {i : Nat} {ph : Ph}
    (h : Loc n nx er errs i ph) (hn : nx ≤ nx') (he : er ≠ 0 → er' ≠ 0) (hs : ∀ v ∈ errs, v ∈ errs') :
    Loc n nx' er' errs' i ph := by
  cases ph with
  | post fs o ended =>
    cases ended with
    | true =>
      obtain ⟨h1, h2⟩ := h
      exact ⟨h1.imp he (fun h => Nat.le_trans h hn), fun k hk => ⟨(h2 k hk).1, he (h2 k hk).2⟩⟩
    | false =>
      obtain ⟨k, a, b, c, d⟩ := h
      exact ⟨k, a, b, by omega, d⟩
  | fin lost | del lost | done lost =>
    cases lost with
    | none => exact Or.imp he (fun h => Nat.le_trans h hn) h
    | some k => exact ⟨he h.1, h.2.1, Nat.lt_of_lt_of_le h.2.2.1 hn, h.2.2.2⟩
  | check fs o | take fs o =>
    obtain ⟨h1, h2⟩ := h
    refine ⟨fun hf => ⟨(h1 hf).1, (h1 hf).2.imp he (fun h => Nat.le_trans h hn)⟩, fun hf => ?_⟩
    obtain ⟨k, a, b, c, d⟩ := h2 hf
    exact ⟨k, a, b, by omega, d⟩
  | drop fs o | call fs o | free fs o =>
    obtain ⟨h1, h2⟩ := h
    exact ⟨h1.imp he (fun h => Nat.le_trans h hn), fun k hk => ⟨(h2 k hk).1, he (h2 k hk).2⟩⟩
  | err k v | lerr k v => exact ⟨⟨h.1.1, Nat.lt_of_lt_of_le h.1.2.1 hn, h.1.2.2⟩, h.2.1, hs _ h.2.2⟩
  | lock k | wait k | io k => exact ⟨h.1, Nat.lt_of_lt_of_le h.2.1 hn, h.2.2⟩
  | idle => trivial
  | begin => trivial

theorem TakeOk.mono {nx nx' i : Nat} {ph : Ph} (h : TakeOk nx i ph) (hn : nx ≤ nx') : TakeOk nx' i ph := by
  cases ph with
  | take fs o => cases fs with
    | true => exact Nat.le_trans h hn
    | false => trivial
  | _ => trivial

/-- A request past its start took a part, unless there was an error. -/
theorem Loc.past {n nx : Nat} {er : Int} {errs : List Int} {i : Nat} {ph : Ph}
    (h : Loc n nx er errs i ph) (hi : i < n) (h0 : ph ≠ .idle) (h1 : ph.starting = false) :
    er ≠ 0 ∨ i + 1 ≤ nx := by
  cases ph with
  | post fs o ended =>
    cases ended with
    | true => exact h.1.imp id (by omega)
    | false => obtain ⟨k, a, b, c, d⟩ := h; right; omega
  | fin lost | del lost | done lost =>
    cases lost with
    | none => exact Or.imp id (fun h => by omega) h
    | some k => exact Or.inl h.1
  | check fs o | take fs o =>
    obtain ⟨k, a, b, c, d⟩ := h.2 (by simpa [Ph.starting] using h1)
    right; omega
  | drop fs o | call fs o | free fs o => exact h.1.imp id (by omega)
  | err k v | lerr k v => right; have := h.1; omega
  | lock k | wait k | io k => right; have h : i ≤ k ∧ k < nx ∧ k < n := h; omega
  | idle => exact absurd rfl h0
  | begin => simp [Ph.starting] at h1

abbrev b (x : Bool) : Nat := if x then 1 else 0

/-- Part `k` was taken. -/
def ind (g : Cfg) (nx k : Nat) : Nat := if k < nx ∧ k < nParts g then 1 else 0

structure Inv (g : Cfg) (st : State) : Prop where
  len : st.reqs.length = nReqs g
  posle : pos (nReqs g) st.pc ≤ nReqs g
  rem : st.remaining = mainRem st.pc + st.reqs.countP holdsRem
  act : st.active = mainAct st.pc + st.reqs.countP holdsAct
  calls : st.calls.length + mainCall st.pc + st.reqs.countP isCall = if st.remaining = 0 then 1 else 0
  dels : st.deleted + mainDel st.pc + st.reqs.countP isDel = if st.active = 0 then 1 else 0
  order : ∀ (i : Nat) (ph : Ph), st.reqs[i]? = some ph →
    (pos (nReqs g) st.pc < i → ph = .idle) ∧
    (i < pos (nReqs g) st.pc → ph ≠ .idle ∧ ph.starting = false)
  adv : st.error ≠ 0 ∨ pos (nReqs g) st.pc ≤ st.next
  loc : ∀ (i : Nat) (ph : Ph), st.reqs[i]? = some ph →
    Loc (nParts g) st.next st.error st.errs i ph ∧ TakeOk st.next i ph
  part : ∀ k, st.issued.count k + st.reqs.countP (pend k) = ind g st.next k
  fly : ∀ k, (st.finished.map Prod.fst).count k + st.reqs.countP (isIo k) = st.issued.count k
  err : st.error ≠ 0 → st.error ∈ st.errs
  errz : (0 : Int) ∉ st.errs
  errs : st.errs ≠ [] → st.error ≠ 0 ∨ ∃ (i : Nat) (ph : Ph), st.reqs[i]? = some ph ∧ isErr ph = true
  bufs : ∀ (i : Nat), st.freed.count i = match st.reqs[i]? with
    | some ph => b (isFreed ph)
    | none => 0
  filled : st.filled = if g.read then [] else st.issued.flatMap (partPages g)
  drained : st.drained = if g.read then
      ((st.finished.filter (fun p => p.2 = 0)).map Prod.fst).flatMap (partPages g) else []
  fails : ∀ p ∈ st.finished, p.2 = 0 ∨ p.2 ∈ st.errs

/-- A request moves from `ph` to `ph'`. -/
structure Move (g : Cfg) (st st' : State) (i : Nat) (ph ph' : Ph) : Prop where
  reqs : st'.reqs = st.reqs.set i ph'
  pc : st'.pc = st.pc
  rem : st'.remaining + b (holdsRem ph) = st.remaining + b (holdsRem ph')
  act : st'.active + b (holdsAct ph) = st.active + b (holdsAct ph')
  calls : st'.calls.length + b (isCall ph') + (if st.remaining = 0 then 1 else 0) =
    st.calls.length + b (isCall ph) + (if st'.remaining = 0 then 1 else 0)
  dels : st'.deleted + b (isDel ph') + (if st.active = 0 then 1 else 0) =
    st.deleted + b (isDel ph) + (if st'.active = 0 then 1 else 0)
  idle : ph' ≠ .idle
  starting : ph'.starting = true → ph.starting = true
  next : st.next ≤ st'.next
  error : st.error ≠ 0 → st'.error ≠ 0
  errsub : ∀ v ∈ st.errs, v ∈ st'.errs
  loc : Loc (nParts g) st'.next st'.error st'.errs i ph' ∧ TakeOk st'.next i ph'
  part : ∀ k, st'.issued.count k + b (pend k ph') + ind g st.next k =
    st.issued.count k + b (pend k ph) + ind g st'.next k
  fly : ∀ k, (st'.finished.map Prod.fst).count k + b (isIo k ph') + st.issued.count k =
    (st.finished.map Prod.fst).count k + b (isIo k ph) + st'.issued.count k
  err : st'.error ≠ 0 → st'.error ∈ st'.errs
  errz : (0 : Int) ∉ st'.errs
  errs : st'.error ≠ 0 ∨ isErr ph' = true ∨ (st'.errs = st.errs ∧ isErr ph = false)
  bufs : ∀ j, st'.freed.count j + (if j = i then b (isFreed ph) else 0) =
    st.freed.count j + (if j = i then b (isFreed ph') else 0)
  filled : st'.filled = if g.read then [] else st'.issued.flatMap (partPages g)
  drained : st'.drained = if g.read then
      ((st'.finished.filter (fun p => p.2 = 0)).map Prod.fst).flatMap (partPages g) else []
  fails : ∀ p ∈ st'.finished, p.2 = 0 ∨ p.2 ∈ st'.errs

theorem lt_of_get {l : List Ph} {i : Nat} {ph : Ph} (h : l[i]? = some ph) : i < l.length := by
  rw [List.getElem?_eq_some_iff] at h
  exact h.1

theorem nReqs_le (g : Cfg) : nReqs g ≤ nParts g := Nat.min_le_left _ _

theorem Inv.move {g : Cfg} {st st' : State} {i : Nat} {ph ph' : Ph} (h : Inv g st)
    (hi : st.reqs[i]? = some ph) (hid : ph ≠ .idle) (m : Move g st st' i ph ph') : Inv g st' := by
  have hlt := lt_of_get hi
  have hset : ∀ j, st'.reqs[j]? = if i = j then some ph' else st.reqs[j]? := by
    intro j
    rw [m.reqs, List.getElem?_set]
    by_cases hj : i = j
    · subst hj; simp [hlt]
    · simp [hj]
  have cnt := fun p => countP_set p st.reqs i ph' ph hi
  constructor
  · rw [m.reqs, List.length_set]; exact h.len
  · rw [m.pc]; exact h.posle
  · have := cnt holdsRem; have := m.rem; have := h.rem
    rw [m.pc, m.reqs]; simp only [b] at *; omega
  · have := cnt holdsAct; have := m.act; have := h.act
    rw [m.pc, m.reqs]; simp only [b] at *; omega
  · have := cnt isCall; have := m.calls; have := h.calls
    rw [m.pc, m.reqs]; simp only [b] at *; omega
  · have := cnt isDel; have := m.dels; have := h.dels
    rw [m.pc, m.reqs]; simp only [b] at *; omega
  · intro j x hj
    rw [hset] at hj
    rw [m.pc]
    by_cases hij : i = j
    · subst hij
      rw [if_pos rfl] at hj
      cases hj
      refine ⟨fun hp => absurd ((h.order i ph hi).1 hp) hid, fun hp => ⟨m.idle, ?_⟩⟩
      have := ((h.order i ph hi).2 hp).2
      cases hc : ph'.starting with
      | false => rfl
      | true => rw [m.starting hc] at this; exact absurd this (by decide)
    · rw [if_neg hij] at hj
      exact h.order j x hj
  · rw [m.pc]; exact h.adv.imp m.error (fun h => Nat.le_trans h m.next)
  · intro j x hj
    rw [hset] at hj
    by_cases hij : i = j
    · subst hij
      rw [if_pos rfl] at hj
      cases hj
      exact m.loc
    · rw [if_neg hij] at hj
      exact ⟨(h.loc j x hj).1.mono m.next m.error m.errsub, (h.loc j x hj).2.mono m.next⟩
  · intro k
    have := cnt (pend k); have := m.part k; have := h.part k
    rw [m.reqs]; simp only [b] at *; omega
  · intro k
    have := cnt (isIo k); have := m.fly k; have := h.fly k
    rw [m.reqs]; simp only [b] at *; omega
  · exact m.err
  · exact m.errz
  · intro hne
    rcases m.errs with he | he | ⟨h1, h2⟩
    · exact Or.inl he
    · exact Or.inr ⟨i, ph', by rw [hset, if_pos rfl], he⟩
    · rw [h1] at hne
      rcases h.errs hne with he | ⟨j, x, hj, hx⟩
      · exact Or.inl (m.error he)
      · refine Or.inr ⟨j, x, ?_, hx⟩
        rw [hset, if_neg]
        · exact hj
        · rintro rfl
          rw [hi] at hj
          cases hj
          rw [h2] at hx
          exact absurd hx (by decide)
  · intro j
    have h1 := m.bufs j
    have h2 := h.bufs j
    rw [hset]
    by_cases hij : i = j
    · subst hij
      rw [hi] at h2
      simp only [if_pos] at h1 h2 ⊢
      omega
    · rw [if_neg hij]
      rw [if_neg (fun e => hij e.symm), if_neg (fun e => hij e.symm)] at h1
      omega
  · exact m.filled
  · exact m.drained
  · exact m.fails

theorem inv_init (g : Cfg) : Inv g (init g) := by
  have c0 : ∀ p : Ph → Bool, p .idle = false → (List.replicate (nReqs g) Ph.idle).countP p = 0 := by
    intro p hp; rw [List.countP_replicate, hp]; rfl
  have gt : ∀ (i : Nat) (ph : Ph), (init g).reqs[i]? = some ph → ph = .idle := by
    intro i ph hp
    simp only [init, List.getElem?_replicate] at hp
    split at hp
    · cases hp; rfl
    · cases hp
  constructor
  · simp [init]
  · simp [init, pos]
  · simp only [init, mainRem]; rw [c0 _ rfl]
  · simp only [init, mainAct]; rw [c0 _ rfl]
  · simp only [init, mainCall]; rw [c0 _ rfl]; simp
  · simp only [init, mainDel]; rw [c0 _ rfl]; simp
  · intro i ph hp
    refine ⟨fun _ => gt i ph hp, fun hl => ?_⟩
    simp only [init, pos] at hl; omega
  · right; simp [init, pos]
  · intro i ph hp; rw [gt i ph hp]; exact ⟨trivial, trivial⟩
  · intro k; simp only [init]; rw [c0 _ rfl]; simp [ind]
  · intro k; simp only [init]; rw [c0 _ rfl]; simp
  · simp [init]
  · simp [init]
  · simp [init]
  · intro i
    have h0 : (init g).freed.count i = 0 := rfl
    rw [h0]
    cases hp : (init g).reqs[i]? with
    | none => rfl
    | some ph => rw [gt i ph hp]; rfl
  · simp [init]
  · simp [init]
  · simp [init]

end Verif.MetaIo
