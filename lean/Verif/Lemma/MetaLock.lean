import Verif.Props.HashLock
import Verif.Model.MetaLock
import Verif.Lemma.Common

namespace Verif.MetaLock

open HashLock (Needed)

/-- place of a lock in the order all threads follow: class, index in the class. -/
def Lock.cls : Lock → Nat
  | .glob _ => 0
  | .hash _ => 1
  | .page _ => 2
  | .lru _ => 3

def Lock.idx : Lock → Nat
  | .glob i => i
  | .hash i => i
  | .page i => i
  | .lru i => i

/-- `a` comes before `b`. -/
def Lock.before (a b : Lock) : Prop := a.cls < b.cls ∨ a.cls = b.cls ∧ a.idx < b.idx

theorem Lock.before_trans {a b c : Lock} : a.before b → b.before c → a.before c := by
  unfold Lock.before; omega

theorem Lock.before_irrefl (a : Lock) : ¬ a.before a := by unfold Lock.before; omega

abbrev Held := List (Lock × Mode)

/-- the locks that make a stretch of code safe. -/
def Backed (n : Nat) (held : Held) : Sect → Prop
  | .excl => ∀ i, i < n → (Lock.glob i, Mode.wr) ∈ held
  | .shared => ∃ i, i < n ∧ (Lock.glob i, Mode.rd) ∈ held
  | .buckets m r => (∃ h, Needed r h) ∧ ∀ h, Needed r h → (Lock.hash h, m) ∈ held
  | .bucket m h => (Lock.hash h, m) ∈ held
  | .page m p => (Lock.page p, m) ∈ held
  | .lru m j => (Lock.lru j, m) ∈ held

/-- whoever holds any lock has global access on some stripe. -/
def Guarded (n : Nat) (held : Held) : Prop :=
  held ≠ [] → ∃ i m, i < n ∧ (Lock.glob i, m) ∈ held

/-- the program keeps to the lock order and to the lock protocol. -/
def Ok (n : Nat) : Held → List Sect → Prog → Prop
  | held, sect, .done => held = [] ∧ sect = []
  | held, sect, .acq l m k =>
    (∀ x ∈ held, x.1.before l) ∧ Guarded n ((l, m) :: held) ∧ Ok n ((l, m) :: held) sect k
  | held, sect, .tryAcq l m a b =>
    Guarded n ((l, m) :: held) ∧ Ok n ((l, m) :: held) sect a ∧ Ok n held sect b
  | held, sect, .rel l m k =>
    (l, m) ∈ held ∧ Guarded n (held.erase (l, m)) ∧
      (∀ x ∈ sect, Backed n (held.erase (l, m)) x) ∧ Ok n (held.erase (l, m)) sect k
  | held, sect, .note x true k => Backed n held x ∧ Ok n held (x :: sect) k
  | held, sect, .note x false k => x ∈ sect ∧ Ok n held (sect.erase x) k

theorem Backed.mono {n : Nat} {a b : Held} (h : ∀ x ∈ a, x ∈ b) {s : Sect} :
    Backed n a s → Backed n b s := by
  cases s <;> simp only [Backed]
  · exact fun f i hi => h _ (f i hi)
  · rintro ⟨i, hi, hm⟩; exact ⟨i, hi, h _ hm⟩
  · exact fun f => ⟨f.1, fun i hi => h _ (f.2 i hi)⟩
  all_goals exact h _

theorem guarded_of_mem {n : Nat} {held : Held} {i : Nat} {m : Mode} (hi : i < n)
    (h : (Lock.glob i, m) ∈ held) : Guarded n held := fun _ => ⟨i, m, hi, h⟩

/-- some stripe is held. -/
def HasGlob (n : Nat) (held : Held) : Prop := ∃ i m, i < n ∧ (Lock.glob i, m) ∈ held

theorem HasGlob.guarded {n : Nat} {a b : Held} (h : HasGlob n a) (hs : ∀ x ∈ a, x ∈ b) :
    Guarded n b := fun _ => let ⟨i, m, hi, hm⟩ := h; ⟨i, m, hi, hs _ hm⟩

/-- all of `S` is backed by `H`. -/
def AllB (n : Nat) (H : Held) (S : List Sect) : Prop := ∀ x ∈ S, Backed n H x

/-- giving back locks that lie on top of `H`, in any order. -/
theorem relAll_ok {n : Nat} {H : Held} {S : List Sect} {m : Mode} {k : Prog} (hk : Ok n H S k)
    (hS : AllB n H S) (ls : List Lock) (xs : Held) (hp : xs.Perm (ls.map (·, m)))
    (hg : ∀ ys : Held, (∀ y ∈ ys, y ∈ xs) → Guarded n (ys ++ H)) :
    Ok n (xs ++ H) S (relAll ls m k) := by
  induction ls generalizing xs with
  | nil =>
    have : xs = [] := by simpa using hp
    subst this; simpa [relAll] using hk
  | cons l ls ih =>
    have hmem : (l, m) ∈ xs := hp.mem_iff.2 (by simp)
    have he : (xs ++ H).erase (l, m) = xs.erase (l, m) ++ H := List.erase_append_left _ hmem
    have hp' : (xs.erase (l, m)).Perm (ls.map (·, m)) := by
      have := hp.erase (l, m)
      simpa using this
    show Ok n (xs ++ H) S (.rel l m (relAll ls m k))
    refine ⟨List.mem_append_left _ hmem, ?_, ?_, ?_⟩
    · rw [he]; exact hg _ (fun y hy => List.mem_of_mem_erase hy)
    · rw [he]; exact fun x hx => (hS x hx).mono (fun y hy => List.mem_append_right _ hy)
    · rw [he]; exact ih _ hp' (fun ys hys => hg ys (fun y hy => List.mem_of_mem_erase (hys y hy)))

/-- taking locks in ascending order on top of `H`. -/
theorem acqAll_ok {n : Nat} {S : List Sect} {m : Mode} {k : Prog} (ls : List Lock) (H : Held)
    (hk : Ok n ((ls.map (·, m)).reverse ++ H) S k)
    (hlt : ls.Pairwise Lock.before) (hH : ∀ x ∈ H, ∀ l ∈ ls, x.1.before l)
    (hg : ∀ ys : Held, (∀ y ∈ ys, y ∈ ls.map (·, m)) → Guarded n (ys ++ H)) :
    Ok n H S (acqAll ls m k) := by
  induction ls generalizing H with
  | nil => simpa [acqAll] using hk
  | cons l ls ih =>
    obtain ⟨h1, h2⟩ := List.pairwise_cons.1 hlt
    show Ok n H S (.acq l m (acqAll ls m k))
    refine ⟨fun x hx => hH x hx l (by simp), hg [(l, m)] (by simp), ih _ ?_ h2 ?_ ?_⟩
    · simpa using hk
    · intro x hx l' hl'
      rcases List.mem_cons.1 hx with rfl | hx
      · exact h1 l' hl'
      · exact hH x hx l' (by simp [hl'])
    · intro ys hys
      have := hg (ys ++ [(l, m)]) (by
        intro y hy
        rcases List.mem_append.1 hy with hy | hy
        · exact List.mem_map.2 (by
            obtain ⟨z, hz, rfl⟩ := List.mem_map.1 (hys y hy); exact ⟨z, by simp [hz], rfl⟩)
        · rw [List.mem_singleton.1 hy]; simp)
      simpa using this

theorem inSect_ok {n : Nat} {H : Held} {S : List Sect} {s : Sect} {body : Prog → Prog} {k : Prog}
    (hb : Backed n H s) (hk : Ok n H S k)
    (hbody : ∀ k, Ok n H (s :: S) k → Ok n H (s :: S) (body k)) :
    Ok n H S (inSect s body k) := by
  refine ⟨hb, hbody _ ⟨by simp, ?_⟩⟩
  simpa using hk

theorem lruSect_ok {n : Nat} {H : Held} {S : List Sect} {m : Mode} {j : Nat} {k : Prog}
    (hk : Ok n H S k) (hS : AllB n H S) (hg : HasGlob n H) (hH : ∀ x ∈ H, x.1.cls < 3) :
    Ok n H S (lruSect m j k) := by
  have hg' : Guarded n H := hg.guarded (fun _ h => h)
  refine ⟨fun x hx => Or.inl (hH x hx), hg.guarded (fun _ h => by simp [h]), ?_⟩
  refine inSect_ok (by simp [Backed]) ⟨by simp, ?_, ?_, ?_⟩ (fun k h => h)
  · simpa using hg'
  · simpa [AllB] using hS
  · simpa using hk

theorem lruSects_ok {n : Nat} {H : Held} {S : List Sect} {js : List Nat} {k : Prog}
    (hk : Ok n H S k) (hS : AllB n H S) (hg : HasGlob n H) (hH : ∀ x ∈ H, x.1.cls < 3) :
    Ok n H S (lruSects js k) := by
  induction js with
  | nil => exact hk
  | cons j js ih => exact lruSect_ok ih hS hg hH

theorem AllB.cons {n : Nat} {H : Held} {S : List Sect} {x : Lock × Mode} (h : AllB n H S) :
    AllB n (x :: H) S := fun s hs => (h s hs).mono (fun _ hy => by simp [hy])

theorem AllB.sect {n : Nat} {H : Held} {S : List Sect} {s : Sect} (h : AllB n H S)
    (hs : Backed n H s) : AllB n H (s :: S) := by
  intro x hx
  rcases List.mem_cons.1 hx with rfl | hx
  · exact hs
  · exact h x hx

theorem HasGlob.cons {n : Nat} {H : Held} {x : Lock × Mode} (h : HasGlob n H) :
    HasGlob n (x :: H) := let ⟨i, m, hi, hm⟩ := h; ⟨i, m, hi, by simp [hm]⟩

theorem pageSect_ok {n : Nat} {H : Held} {S : List Sect} {m : Mode} {p : Nat} {js : List Nat}
    {k : Prog} (hk : Ok n H S k) (hS : AllB n H S) (hg : HasGlob n H)
    (hH : ∀ x ∈ H, x.1.cls < 2) : Ok n H S (pageSect m p js k) := by
  have hg' : Guarded n H := hg.guarded (fun _ h => h)
  have hb : Backed n ((Lock.page p, m) :: H) (.page m p) := by simp [Backed]
  refine ⟨fun x hx => Or.inl (hH x hx), hg.guarded (fun _ h => by simp [h]), ?_⟩
  refine inSect_ok hb ⟨by simp, ?_, ?_, ?_⟩ (fun k h => lruSects_ok h (hS.cons.sect hb) hg.cons ?_)
  · simpa using hg'
  · simpa [AllB] using hS
  · simpa using hk
  · intro x hx
    rcases List.mem_cons.1 hx with rfl | hx
    · simp [Lock.cls]
    · exact Nat.lt_succ_of_lt (hH x hx)

theorem works_ok {n : Nat} {H : Held} {S : List Sect} {ws : List Work} {k : Prog}
    (hk : Ok n H S k) (hS : AllB n H S) (hg : HasGlob n H) (hH : ∀ x ∈ H, x.1.cls < 2) :
    Ok n H S (works ws k) := by
  induction ws with
  | nil => exact hk
  | cons w ws ih =>
    cases w with
    | lru m j => exact lruSect_ok ih hS hg (fun x hx => Nat.lt_succ_of_lt (hH x hx))
    | page p js => exact pageSect_ok ih hS hg hH

theorem scan_ok {n : Nat} {H : Held} {S : List Sect} {r : HashLock.Req} {cs : List (Nat × Bool)}
    {found : Nat → Prog} {no : Prog} (hS : AllB n H S) (hg : HasGlob n H)
    (hno : Ok n H S no)
    (hin : ∀ c, r.hashInRange c = true → Ok n H S (found c))
    (hout : ∀ c, r.hashInRange c = false → Ok n ((Lock.hash c, .wr) :: H) S (found c)) :
    Ok n H S (scan r cs found no) := by
  induction cs with
  | nil => exact hno
  | cons c cs ih =>
    obtain ⟨c, w⟩ := c
    show Ok n H S (if r.hashInRange c then
      if w then scan r cs found no else found c
    else .tryAcq (.hash c) .wr (if w then .rel (.hash c) .wr (scan r cs found no) else found c)
        (scan r cs found no))
    cases hc : r.hashInRange c with
    | true =>
      cases w with
      | true => exact ih
      | false => exact hin c hc
    | false =>
      have hg' : Guarded n H := hg.guarded (fun _ h => h)
      refine ⟨hg.guarded (fun _ h => by simp [h]), ?_, ih⟩
      cases w with
      | true =>
        refine ⟨by simp, ?_, ?_, ?_⟩
        · simpa using hg'
        · simpa [AllB] using hS
        · simpa using ih
      | false => exact hout c hc

theorem evictNext_ok {n : Nat} {H : Held} {S : List Sect} {r : HashLock.Req}
    {vis : List (Nat × List (Nat × Bool))} {found : Nat → Prog} {no : Prog} (hS : AllB n H S)
    (hg : HasGlob n H) (hH : ∀ x ∈ H, x.1.cls < 2) (hno : Ok n H S no)
    (hin : ∀ c, r.hashInRange c = true → Ok n H S (found c))
    (hout : ∀ c, r.hashInRange c = false → Ok n ((Lock.hash c, .wr) :: H) S (found c)) :
    Ok n H S (evictNext r vis found no) := by
  have hg' : Guarded n H := hg.guarded (fun _ h => h)
  induction vis with
  | nil => exact hno
  | cons v vis ih =>
    obtain ⟨j, cs⟩ := v
    refine ⟨fun x hx => Or.inl (Nat.lt_succ_of_lt (hH x hx)), hg.guarded (fun _ h => by simp [h]), ?_⟩
    refine scan_ok hS.cons hg.cons ⟨by simp, ?_, ?_, ?_⟩ (fun c hc => ⟨by simp, ?_, ?_, ?_⟩)
      (fun c hc => ?_)
    · simpa using hg'
    · simpa [AllB] using hS
    · simpa using ih
    · simpa using hg'
    · simpa [AllB] using hS
    · simpa using hin c hc
    · have he : (((Lock.hash c, Mode.wr) :: (Lock.lru j, Mode.wr) :: H).erase (Lock.lru j, Mode.wr))
          = (Lock.hash c, Mode.wr) :: H := by
        rw [List.erase_cons_tail (by simp), List.erase_cons_head]
      refine ⟨by simp, ?_, ?_, ?_⟩
      · rw [he]; exact hg.guarded (fun _ h => by simp [h])
      · rw [he]; exact hS.cons
      · rw [he]; exact hout c hc

theorem useVictim_in {n : Nat} {H : Held} {S : List Sect} {r : HashLock.Req} {p c : Nat} {k : Prog}
    (hk : Ok n H S k) (hS : AllB n H S) (hg : HasGlob n H) (hH : ∀ x ∈ H, x.1.cls < 2)
    (hc : r.hashInRange c = true) (hm : (Lock.hash c, Mode.wr) ∈ H) :
    Ok n H S (useVictim r p c k) := by
  unfold useVictim
  rw [if_pos hc]
  have hb : Backed n H (.bucket .wr c) := hm
  exact inSect_ok hb (pageSect_ok hk hS hg hH) (fun k h => pageSect_ok h (hS.sect hb) hg hH)

theorem useVictim_out {n : Nat} {H : Held} {S : List Sect} {r : HashLock.Req} {p c : Nat} {k : Prog}
    (hk : Ok n H S k) (hS : AllB n H S) (hg : HasGlob n H) (hH : ∀ x ∈ H, x.1.cls < 2)
    (hc : r.hashInRange c = false) :
    Ok n ((Lock.hash c, .wr) :: H) S (useVictim r p c k) := by
  unfold useVictim
  rw [hc]
  have hb : Backed n ((Lock.hash c, Mode.wr) :: H) (.bucket .wr c) := by simp [Backed]
  have hH' : ∀ x ∈ ((Lock.hash c, Mode.wr) :: H), x.1.cls < 2 := by
    intro x hx
    rcases List.mem_cons.1 hx with rfl | hx
    · simp [Lock.cls]
    · exact hH x hx
  have hg' : Guarded n H := hg.guarded (fun _ h => h)
  refine inSect_ok hb ⟨by simp, ?_, ?_, ?_⟩
    (fun k h => pageSect_ok h (hS.cons.sect hb) hg.cons hH')
  · simpa using hg'
  · simpa [AllB] using hS
  · simpa using pageSect_ok hk hS hg hH

theorem evictAll_ok {n : Nat} {H : Held} {S : List Sect} {r : HashLock.Req}
    {es : List (List (Nat × List (Nat × Bool)) × Nat)} {k : Prog} (hk : Ok n H S k)
    (hS : AllB n H S) (hg : HasGlob n H) (hH : ∀ x ∈ H, x.1.cls < 2)
    (hr : ∀ c, r.hashInRange c = true → (Lock.hash c, Mode.wr) ∈ H) :
    Ok n H S (evictAll r es k) := by
  induction es with
  | nil => exact hk
  | cons e es ih =>
    obtain ⟨vis, p⟩ := e
    exact evictNext_ok hS hg hH hk (fun c hc => useVictim_in ih hS hg hH hc (hr c hc))
      (fun c hc => useVictim_out ih hS hg hH hc)

/-- arguments the code can pass: a stripe that exists, a request with at least one core line, a
table with at least one bucket. -/
def Task.Wf (n : Nat) : Task → Prop
  | .excl _ => 0 < n
  | .tryExcl _ => 0 < n
  | .lruAll idx _ => idx < n
  | .fill idx _ => idx < n
  | .bucket idx _ _ _ => idx < n
  | .req idx _ r _ => idx < n ∧ 0 < r.numHash ∧ 0 < r.count
  | .prepare idx r _ _ _ _ => idx < n ∧ 0 < r.numHash ∧ 0 < r.count

theorem globs_guarded {n : Nat} {m : Mode} {ys : Held}
    (h : ∀ y ∈ ys, ∃ i, i < n ∧ y = (Lock.glob i, m)) : Guarded n (ys ++ []) := by
  intro hne
  cases ys with
  | nil => simp at hne
  | cons y ys =>
    obtain ⟨i, hi, rfl⟩ := h y (by simp)
    exact ⟨i, m, hi, by simp⟩

/-- the stripes held under exclusive access, the last one first. -/
def stripes (n : Nat) : Held := ((List.range n).map Lock.glob).reverse.map (·, Mode.wr)

theorem mem_stripes {n : Nat} {x : Lock × Mode} :
    x ∈ stripes n ↔ ∃ i, i < n ∧ x = (Lock.glob i, Mode.wr) := by
  unfold stripes
  simp only [List.mem_map, List.mem_reverse, List.mem_range]
  constructor
  · rintro ⟨_, ⟨i, hi, rfl⟩, rfl⟩; exact ⟨i, hi, rfl⟩
  · rintro ⟨i, hi, rfl⟩; exact ⟨_, ⟨i, hi, rfl⟩, rfl⟩

theorem endExcl_ok {n : Nat} {k : Prog} (hk : Ok n [] [] k) :
    Ok n (stripes n) [] (endExcl n k) := by
  have := relAll_ok (m := .wr) hk (by simp [AllB]) ((List.range n).reverse.map .glob) (stripes n)
    (by
      have : stripes n = ((List.range n).reverse.map Lock.glob).map (·, Mode.wr) := by
        unfold stripes; rw [List.map_reverse, List.map_reverse, List.map_reverse]
      rw [this])
    (fun ys hys => globs_guarded (fun y hy => mem_stripes.1 (hys y hy)))
  rw [List.append_nil] at this
  exact this

theorem range_before (n : Nat) : ((List.range n).map Lock.glob).Pairwise Lock.before := by
  rw [List.pairwise_map]
  exact List.pairwise_lt_range.imp (fun h => Or.inr ⟨rfl, h⟩)

theorem exclBody_ok {n : Nat} {ws : List Work} {k : Prog} (hn : 0 < n) (hk : Ok n [] [] k) :
    Ok n (stripes n) [] (inSect .excl (works ws) (endExcl n k)) := by
  have hb : Backed n (stripes n) .excl := fun i hi => mem_stripes.2 ⟨i, hi, rfl⟩
  refine inSect_ok hb (endExcl_ok hk) (fun k h => works_ok h ?_ ?_ ?_)
  · exact AllB.sect (by simp [AllB]) hb
  · exact ⟨0, .wr, hn, hb 0 hn⟩
  · intro x hx
    obtain ⟨i, _, rfl⟩ := mem_stripes.1 hx
    simp [Lock.cls]

theorem tryAll_ok {n : Nat} {ok no : Prog} (ls taken : List Lock)
    (hnt : ∀ l ∈ taken, ∃ i, i < n ∧ l = Lock.glob i) (hnl : ∀ l ∈ ls, ∃ i, i < n ∧ l = Lock.glob i)
    (hok : Ok n ((ls.reverse ++ taken).map (·, Mode.wr)) [] ok) (hno : Ok n [] [] no) :
    Ok n (taken.map (·, Mode.wr)) [] (tryAll taken ls ok no) := by
  induction ls generalizing taken with
  | nil => simpa [tryAll] using hok
  | cons l ls ih =>
    have hgl : ∀ ts : List Lock, (∀ l ∈ ts, ∃ i, i < n ∧ l = Lock.glob i) →
        ∀ y ∈ ts.map (·, Mode.wr), ∃ i, i < n ∧ y = (Lock.glob i, Mode.wr) := by
      intro ts h y hy
      obtain ⟨z, hz, rfl⟩ := List.mem_map.1 hy
      obtain ⟨i, hi, rfl⟩ := h z hz
      exact ⟨i, hi, rfl⟩
    have hnt' : ∀ x ∈ l :: taken, ∃ i, i < n ∧ x = Lock.glob i := by
      intro x hx
      rcases List.mem_cons.1 hx with rfl | hx
      · exact hnl _ (by simp)
      · exact hnt x hx
    refine ⟨?_, ?_, ?_⟩
    · have := globs_guarded (hgl _ hnt')
      simpa using this
    · have := ih (l :: taken) hnt' (fun x hx => hnl x (by simp [hx])) (by simpa using hok)
      simpa using this
    · have := relAll_ok (m := .wr) hno (by simp [AllB]) taken (taken.map (·, Mode.wr))
        (List.Perm.refl _) (fun ys hys => globs_guarded (fun y hy => hgl _ hnt y (hys y hy)))
      simpa using this

theorem one_glob {n idx : Nat} (h : idx < n) : HasGlob n [(Lock.glob idx, Mode.rd)] :=
  ⟨idx, .rd, h, by simp⟩

theorem endShared_ok {n idx : Nat} {k : Prog} (hk : Ok n [] [] k) :
    Ok n [(Lock.glob idx, .rd)] [] (endShared idx k) := by
  refine ⟨by simp, ?_, by simp, ?_⟩
  · simp [Guarded]
  · simpa using hk

/-- buckets of a request as held locks. -/
def hashes (r : HashLock.Req) (m : Mode) : Held := (r.lockOrder.map Lock.hash).map (·, m)

theorem mem_hashes {r : HashLock.Req} {m : Mode} {x : Lock × Mode} :
    x ∈ hashes r m ↔ ∃ h ∈ r.lockOrder, x = (Lock.hash h, m) := by
  unfold hashes
  simp only [List.mem_map]
  constructor
  · rintro ⟨_, ⟨h, hh, rfl⟩, rfl⟩; exact ⟨h, hh, rfl⟩
  · rintro ⟨h, hh, rfl⟩; exact ⟨_, ⟨h, hh, rfl⟩, rfl⟩

theorem hashes_before (r : HashLock.Req) : (r.lockOrder.map Lock.hash).Pairwise Lock.before := by
  rw [List.pairwise_map]
  exact (HashLock.lockOrder_ascending r).imp (fun h => Or.inr ⟨rfl, h⟩)

theorem HasGlob.app {n : Nat} {H ys : Held} (h : HasGlob n H) : Guarded n (ys ++ H) :=
  h.guarded (fun _ hx => List.mem_append_right _ hx)

theorem acqHashes_ok {n idx : Nat} {r : HashLock.Req} {m : Mode} {k : Prog} (hi : idx < n)
    (hk : Ok n ((hashes r m).reverse ++ [(Lock.glob idx, .rd)]) [] k) :
    Ok n [(Lock.glob idx, .rd)] [] (acqAll (r.lockOrder.map .hash) m k) := by
  refine acqAll_ok _ _ hk (hashes_before r) ?_ (fun ys _ => (one_glob hi).app)
  intro x hx l hl
  obtain ⟨h, _, rfl⟩ := List.mem_map.1 hl
  rw [List.mem_singleton.1 hx]
  exact Or.inl (by simp [Lock.cls])

theorem relHashes_ok {n idx : Nat} {r : HashLock.Req} {m : Mode} {k : Prog} (hi : idx < n)
    (hk : Ok n [(Lock.glob idx, .rd)] [] k) :
    Ok n ((hashes r m).reverse ++ [(Lock.glob idx, .rd)]) [] (relAll (r.lockOrder.map .hash) m k) :=
  relAll_ok hk (by simp [AllB]) _ _ (List.reverse_perm _) (fun ys _ => (one_glob hi).app)

theorem reqHeld {n idx : Nat} {r : HashLock.Req} {m : Mode} (hi : idx < n)
    (hN : 0 < r.numHash) (hc : 0 < r.count) :
    HasGlob n ((hashes r m).reverse ++ [(Lock.glob idx, .rd)]) ∧
    (∀ x ∈ (hashes r m).reverse ++ [(Lock.glob idx, Mode.rd)], x.1.cls < 2) ∧
    Backed n ((hashes r m).reverse ++ [(Lock.glob idx, Mode.rd)]) (.buckets m r) ∧
    (∀ c, r.hashInRange c = true → (Lock.hash c, m) ∈ (hashes r m).reverse ++ [(Lock.glob idx, Mode.rd)]) := by
  have hmem : ∀ h, Needed r h → (Lock.hash h, m) ∈ (hashes r m).reverse ++ [(Lock.glob idx, Mode.rd)] := by
    intro h hh
    refine List.mem_append_left _ (List.mem_reverse.2 (mem_hashes.2 ⟨h, ?_, rfl⟩))
    exact (HashLock.lockOrder_mem r hN hc h).2 hh
  refine ⟨⟨idx, .rd, hi, by simp⟩, ?_, ⟨⟨_, r.first, Nat.le_refl _, by omega, rfl⟩, hmem⟩, fun c hc' => hmem c ((HashLock.hashInRange_iff r hN hc c).1 hc')⟩
  intro x hx
  rcases List.mem_append.1 hx with hx | hx
  · obtain ⟨h, _, rfl⟩ := mem_hashes.1 (List.mem_reverse.1 hx)
    simp [Lock.cls]
  · rw [List.mem_singleton.1 hx]; simp [Lock.cls]

/-- every code path follows the protocol. -/
theorem task_ok {n : Nat} (t : Task) (hw : t.Wf n) {k : Prog} (hk : Ok n [] [] k) :
    Ok n [] [] (t.run n k) := by
  cases t with
  | excl ws =>
    refine acqAll_ok _ _ ?_ (range_before n) (by simp) ?_
    · have := exclBody_ok (ws := ws) hw hk
      simpa [stripes] using this
    · exact fun ys hys => globs_guarded (m := .wr) (fun y hy => by
        obtain ⟨z, hz, rfl⟩ := List.mem_map.1 (hys y hy)
        obtain ⟨i, hi, rfl⟩ := List.mem_map.1 hz
        exact ⟨i, List.mem_range.1 hi, rfl⟩)
  | tryExcl ws =>
    have hgl : ∀ l ∈ (List.range n).map Lock.glob, ∃ i, i < n ∧ l = Lock.glob i := by
      intro l hl
      obtain ⟨i, hi, rfl⟩ := List.mem_map.1 hl
      exact ⟨i, List.mem_range.1 hi, rfl⟩
    have := tryAll_ok (n := n) (ok := inSect .excl (works ws) (endExcl n k)) (no := k)
      ((List.range n).map .glob) [] (by simp) hgl
      (by simpa [stripes] using exclBody_ok (ws := ws) hw hk) hk
    simpa [Task.run, MetaLock.tryExcl] using this
  | lruAll idx lists =>
    have hw : idx < n := hw
    refine ⟨by simp, (one_glob hw).guarded (fun _ h => h), ?_⟩
    have hb : Backed n [(Lock.glob idx, Mode.rd)] .shared := ⟨idx, hw, by simp⟩
    refine inSect_ok hb (endShared_ok hk) (fun k h => ?_)
    refine acqAll_ok _ _ ?_ ?_ ?_ (fun ys _ => (one_glob hw).app)
    · exact relAll_ok h (AllB.sect (by simp [AllB]) hb) _ _ (List.reverse_perm _)
        (fun ys _ => (one_glob hw).app)
    · rw [List.pairwise_map]
      exact List.pairwise_lt_range.imp (fun h => Or.inr ⟨rfl, h⟩)
    · intro x hx l hl
      obtain ⟨j, _, rfl⟩ := List.mem_map.1 hl
      rw [List.mem_singleton.1 hx]
      exact Or.inl (by simp [Lock.cls])
  | fill idx ps =>
    have hw : idx < n := hw
    refine ⟨by simp, (one_glob hw).guarded (fun _ h => h), ?_⟩
    have hb : Backed n [(Lock.glob idx, Mode.rd)] .shared := ⟨idx, hw, by simp⟩
    refine inSect_ok hb (endShared_ok hk) (fun k h => ?_)
    induction ps with
    | nil => exact h
    | cons p ps ih =>
      exact pageSect_ok (ih hw) (AllB.sect (by simp [AllB]) hb) (one_glob hw)
        (fun x hx => by rw [List.mem_singleton.1 hx]; simp [Lock.cls])
  | bucket idx m h ws =>
    have hw : idx < n := hw
    refine ⟨by simp, (one_glob hw).guarded (fun _ h => h), ?_, ?_, ?_⟩
    · intro x hx
      rw [List.mem_singleton.1 hx]
      exact Or.inl (by simp [Lock.cls])
    · exact (one_glob hw).guarded (fun _ h => by simp [h])
    · have hb : Backed n [(Lock.hash h, m), (Lock.glob idx, Mode.rd)] (.bucket m h) := by simp [Backed]
      refine inSect_ok hb ?_ (fun k hk => works_ok hk (AllB.sect (by simp [AllB]) hb)
        (one_glob hw).cons ?_)
      · refine ⟨by simp, ?_, by simp, ?_⟩
        · simpa using (one_glob hw).guarded (fun _ h => h)
        · simpa using endShared_ok (idx := idx) hk
      · intro x hx
        rcases List.mem_cons.1 hx with rfl | hx
        · simp [Lock.cls]
        · rw [List.mem_singleton.1 hx]; simp [Lock.cls]
  | req idx m r ws =>
    obtain ⟨hi, hN, hc⟩ := hw
    obtain ⟨h1, h2, h3, _⟩ := reqHeld (m := m) hi hN hc
    refine ⟨by simp, (one_glob hi).guarded (fun _ h => h), acqHashes_ok hi ?_⟩
    exact inSect_ok h3 (relHashes_ok hi (endShared_ok hk))
      (fun k hk => works_ok hk (AllB.sect (by simp [AllB]) h3) h1 h2)
  | prepare idx r ws ws' es ws'' =>
    obtain ⟨hi, hN, hc⟩ := hw
    obtain ⟨h1, h2, h3, _⟩ := reqHeld (m := .rd) hi hN hc
    obtain ⟨g1, g2, g3, g4⟩ := reqHeld (m := .wr) hi hN hc
    refine ⟨by simp, (one_glob hi).guarded (fun _ h => h), acqHashes_ok hi ?_⟩
    refine inSect_ok h3 ?_ (fun k hk => works_ok hk (AllB.sect (by simp [AllB]) h3) h1 h2)
    refine relHashes_ok hi (acqHashes_ok hi ?_)
    have hS := AllB.sect (S := []) (by simp [AllB]) g3
    exact inSect_ok g3 (relHashes_ok hi (endShared_ok hk))
      (fun k hk => works_ok (evictAll_ok (works_ok hk hS g1 g2) hS g1 g2 g4) hS g1 g2)

theorem runAll_ok {n : Nat} (ts : List Task) (hw : ∀ t ∈ ts, t.Wf n) : Ok n [] [] (runAll n ts) := by
  induction ts with
  | nil => exact ⟨rfl, rfl⟩
  | cons t ts ih => exact task_ok t (hw t (by simp)) (ih (fun t ht => hw t (by simp [ht])))

/-- number of times lock `l` is held in mode `m`, over all threads. -/
def total (ths : List Thread) (x : Lock × Mode) : Nat := (ths.map (fun t => t.held.count x)).sum

theorem total_set (ths : List Thread) (i : Nat) (t u : Thread) (h : ths[i]? = some t)
    (x : Lock × Mode) : total (ths.set i u) x + t.held.count x = total ths x + u.held.count x := by
  induction ths generalizing i with
  | nil => simp at h
  | cons a as ih =>
    cases i with
    | zero =>
      simp only [List.getElem?_cons_zero, Option.some.injEq] at h
      subst h
      simp only [total, List.set_cons_zero, List.map_cons, List.sum_cons]
      omega
    | succ i =>
      have := ih i (by simpa using h)
      simp only [total, List.set_cons_succ, List.map_cons, List.sum_cons] at this ⊢
      omega

theorem total_pos {ths : List Thread} {x : Lock × Mode} {i : Nat} {t : Thread}
    (h : ths[i]? = some t) (hx : x ∈ t.held) : 0 < total ths x := by
  induction ths generalizing i with
  | nil => simp at h
  | cons a as ih =>
    cases i with
    | zero =>
      simp only [List.getElem?_cons_zero, Option.some.injEq] at h
      subst h
      have := List.count_pos_iff.2 hx
      simp only [total, List.map_cons, List.sum_cons]
      omega
    | succ i =>
      have := ih (i := i) (by simpa using h)
      simp only [total, List.map_cons, List.sum_cons] at this ⊢
      omega

theorem exists_of_total_pos {ths : List Thread} {x : Lock × Mode} (h : 0 < total ths x) :
    ∃ t ∈ ths, x ∈ t.held := by
  induction ths with
  | nil => simp [total] at h
  | cons a as ih =>
    by_cases ha : x ∈ a.held
    · exact ⟨a, by simp, ha⟩
    · have h0 := List.count_eq_zero.2 ha
      simp only [total, List.map_cons, List.sum_cons] at h
      obtain ⟨t, ht, hx⟩ := ih (by simp only [total]; omega)
      exact ⟨t, by simp [ht], hx⟩

/-- two different threads both holding `x` count twice. -/
theorem total_two {ths : List Thread} {x : Lock × Mode} {i j : Nat} {t u : Thread}
    (hi : ths[i]? = some t) (hj : ths[j]? = some u) (hij : i ≠ j) (hx : x ∈ t.held)
    (hy : x ∈ u.held) : 2 ≤ total ths x := by
  induction ths generalizing i j with
  | nil => simp at hi
  | cons a as ih =>
    cases i with
    | zero =>
      cases j with
      | zero => exact absurd rfl hij
      | succ j =>
        simp only [List.getElem?_cons_zero, Option.some.injEq] at hi
        subst hi
        have h1 := List.count_pos_iff.2 hx
        have h2 : 0 < total as x := total_pos (i := j) (by simpa using hj) hy
        simp only [total, List.map_cons, List.sum_cons] at h2 ⊢
        omega
    | succ i =>
      cases j with
      | zero =>
        simp only [List.getElem?_cons_zero, Option.some.injEq] at hj
        subst hj
        have h1 := List.count_pos_iff.2 hy
        have h2 : 0 < total as x := total_pos (i := i) (by simpa using hi) hx
        simp only [total, List.map_cons, List.sum_cons] at h2 ⊢
        omega
      | succ j =>
        have := ih (i := i) (j := j) (by simpa using hi) (by simpa using hj) (by omega)
        simp only [total, List.map_cons, List.sum_cons] at this ⊢
        omega

/-- a thread that follows the protocol. -/
structure Good (n : Nat) (t : Thread) : Prop where
  ok : Ok n t.held t.sect t.prog
  back : AllB n t.held t.sect
  guard : Guarded n t.held

structure Inv (n : Nat) (s : State) : Prop where
  good : ∀ t ∈ s.ths, Good n t
  rd : ∀ l, (s.sem l).readers = total s.ths (l, .rd)
  wr : ∀ l, total s.ths (l, .wr) = if (s.sem l).writer then 1 else 0
  ex : ∀ l, (s.sem l).writer = true → (s.sem l).readers = 0

theorem start_inv {n : Nat} {tss : List (List Task)} (hw : ∀ ts ∈ tss, ∀ t ∈ ts, t.Wf n) :
    Inv n (start n tss) := by
  have h0 : ∀ x, total (start n tss).ths x = 0 := by
    intro x
    unfold start total
    simp only [List.map_map]
    induction tss with
    | nil => rfl
    | cons a as ih =>
      have := ih (fun ts h => hw ts (by simp [h]))
      simp only [List.map_cons, List.sum_cons, this]
      simp
  refine ⟨?_, fun l => by rw [h0]; rfl, fun l => by rw [h0]; rfl, fun l h => by cases h⟩
  intro t ht
  obtain ⟨ts, hts, rfl⟩ := List.mem_map.1 ht
  exact ⟨runAll_ok ts (hw ts hts), by simp [AllB], by simp [Guarded]⟩

theorem good_set {n : Nat} {ths : List Thread} {i : Nat} {u : Thread}
    (h : ∀ t ∈ ths, Good n t) (hu : Good n u) : ∀ t ∈ ths.set i u, Good n t := by
  intro t ht
  rcases List.mem_or_eq_of_mem_set ht with h' | h'
  · exact h t h'
  · rw [h']; exact hu

/-- taking a free lock keeps the counters right. -/
theorem take_inv {n : Nat} {s : State} (hs : Inv n s) {i : Nat} {t u : Thread} {l : Lock} {m : Mode}
    (hi : s.ths[i]? = some t) (hf : (s.sem l).free m = true) (hh : u.held = (l, m) :: t.held)
    (hu : Good n u) : Inv n ⟨setSem s.sem l ((s.sem l).down m), s.ths.set i u⟩ := by
  have hT := total_set s.ths i t u hi
  have hc : ∀ x, u.held.count x = t.held.count x + if (l, m) = x then 1 else 0 := by
    intro x
    rw [hh, List.count_cons]
    simp
  refine ⟨good_set hs.good hu, ?_, ?_, ?_⟩
  · intro x
    have h1 := hT (x, .rd)
    have h2 := hs.rd x
    rw [hc] at h1
    show (setSem s.sem l ((s.sem l).down m) x).readers = total (s.ths.set i u) (x, .rd)
    unfold setSem
    by_cases hx : x = l
    · subst hx
      rw [if_pos rfl]
      cases m <;> simp [Sem.down] at h1 ⊢ <;> omega
    · rw [if_neg hx]
      rw [if_neg (by intro h; cases h; exact hx rfl)] at h1
      omega
  · intro x
    have h1 := hT (x, .wr)
    have h2 := hs.wr x
    rw [hc] at h1
    show total (s.ths.set i u) (x, .wr) = if (setSem s.sem l ((s.sem l).down m) x).writer then 1 else 0
    unfold setSem
    by_cases hx : x = l
    · subst hx
      rw [if_pos rfl]
      cases m
      · simp [Sem.down] at h1 ⊢; rw [h1]; exact h2
      · simp [Sem.down, Sem.free] at h1 hf ⊢
        rw [hf.1] at h2
        simp at h2
        omega
    · rw [if_neg hx]
      rw [if_neg (by intro h; cases h; exact hx rfl)] at h1
      omega
  · intro x
    have h2 := hs.ex x
    show (setSem s.sem l ((s.sem l).down m) x).writer = true → (setSem s.sem l ((s.sem l).down m) x).readers = 0
    unfold setSem
    by_cases hx : x = l
    · subst hx
      rw [if_pos rfl]
      cases m
      · simp [Sem.down, Sem.free] at hf ⊢
        rw [hf]
      · simp [Sem.down, Sem.free] at hf ⊢
        exact hf.2
    · rw [if_neg hx]
      exact h2

/-- giving back a held lock keeps the counters right. -/
theorem give_inv {n : Nat} {s : State} (hs : Inv n s) {i : Nat} {t u : Thread} {l : Lock} {m : Mode}
    (hi : s.ths[i]? = some t) (hm : (l, m) ∈ t.held) (hh : u.held = t.held.erase (l, m))
    (hu : Good n u) : Inv n ⟨setSem s.sem l ((s.sem l).up m), s.ths.set i u⟩ := by
  have hT := total_set s.ths i t u hi
  have hp := total_pos hi hm
  have hc : ∀ x, u.held.count x + (if (l, m) = x then 1 else 0) = t.held.count x := by
    intro x
    rw [hh]
    by_cases hx : (l, m) = x
    · subst hx
      rw [if_pos rfl, List.count_erase_self]
      have := List.count_pos_iff.2 hm
      omega
    · rw [if_neg hx, List.count_erase_of_ne (fun h => hx h.symm)]
      rfl
  refine ⟨good_set hs.good hu, ?_, ?_, ?_⟩
  · intro x
    have h1 := hT (x, .rd)
    have h2 := hs.rd x
    rw [← hc] at h1
    show (setSem s.sem l ((s.sem l).up m) x).readers = total (s.ths.set i u) (x, .rd)
    unfold setSem
    by_cases hx : x = l
    · subst hx
      rw [if_pos rfl]
      cases m <;> simp [Sem.up] at h1 ⊢ <;> omega
    · rw [if_neg hx]
      rw [if_neg (by intro h; cases h; exact hx rfl)] at h1
      omega
  · intro x
    have h1 := hT (x, .wr)
    have h2 := hs.wr x
    rw [← hc] at h1
    show total (s.ths.set i u) (x, .wr) = if (setSem s.sem l ((s.sem l).up m) x).writer then 1 else 0
    unfold setSem
    by_cases hx : x = l
    · subst hx
      rw [if_pos rfl]
      cases m
      · simp [Sem.up] at h1 ⊢; rw [h1]; exact h2
      · simp [Sem.up] at h1 ⊢
        cases hwr : (s.sem x).writer with
        | true => rw [hwr] at h2; simp at h2; omega
        | false => rw [hwr] at h2; simp at h2; omega
    · rw [if_neg hx]
      rw [if_neg (by intro h; cases h; exact hx rfl)] at h1
      omega
  · intro x
    have h2 := hs.ex x
    show (setSem s.sem l ((s.sem l).up m) x).writer = true → (setSem s.sem l ((s.sem l).up m) x).readers = 0
    unfold setSem
    by_cases hx : x = l
    · subst hx
      rw [if_pos rfl]
      cases m
      · simp only [Sem.up]
        intro hw
        have := h2 hw
        omega
      · simp [Sem.up]
    · rw [if_neg hx]
      exact h2

/-- a step that leaves the locks alone. -/
theorem quiet_inv {n : Nat} {s : State} (hs : Inv n s) {i : Nat} {t u : Thread}
    (hi : s.ths[i]? = some t) (hh : u.held = t.held) (hu : Good n u) :
    Inv n ⟨s.sem, s.ths.set i u⟩ := by
  have hT : ∀ x, total (s.ths.set i u) x = total s.ths x := by
    intro x
    have := total_set s.ths i t u hi x
    rw [hh] at this
    omega
  exact ⟨good_set hs.good hu, fun l => by rw [hs.rd l]; exact (hT _).symm,
    fun l => by rw [← hs.wr l]; exact hT _, hs.ex⟩

theorem step_inv {n : Nat} {s s' : State} (hs : Inv n s) (h : Step s s') : Inv n s' := by
  cases h with
  | acq i t l m k hi hp hf =>
    have hg := hs.good t (List.mem_of_getElem? hi)
    have ho := hg.ok
    rw [hp] at ho
    exact take_inv hs hi hf rfl ⟨ho.2.2, hg.back.cons, ho.2.1⟩
  | tryOk i t l m a b hi hp hf =>
    have hg := hs.good t (List.mem_of_getElem? hi)
    have ho := hg.ok
    rw [hp] at ho
    exact take_inv hs hi hf rfl ⟨ho.2.1, hg.back.cons, ho.1⟩
  | tryNo i t l m a b hi hp =>
    have hg := hs.good t (List.mem_of_getElem? hi)
    have ho := hg.ok
    rw [hp] at ho
    exact quiet_inv hs hi rfl ⟨ho.2.2, hg.back, hg.guard⟩
  | rel i t l m k hi hp =>
    have hg := hs.good t (List.mem_of_getElem? hi)
    have ho := hg.ok
    rw [hp] at ho
    exact give_inv hs hi ho.1 rfl ⟨ho.2.2.2, ho.2.2.1, ho.2.1⟩
  | enter i t x k hi hp =>
    have hg := hs.good t (List.mem_of_getElem? hi)
    have ho := hg.ok
    rw [hp] at ho
    exact quiet_inv hs hi rfl ⟨ho.2, hg.back.sect ho.1, hg.guard⟩
  | leave i t x k hi hp =>
    have hg := hs.good t (List.mem_of_getElem? hi)
    have ho := hg.ok
    rw [hp] at ho
    exact quiet_inv hs hi rfl ⟨ho.2, fun y hy => hg.back y (List.mem_of_mem_erase hy), hg.guard⟩

/-- a lock held for writing is held by nobody else in any mode. -/
theorem wr_alone {n : Nat} {s : State} (hs : Inv n s) {i j : Nat} {t u : Thread} {l : Lock} {m : Mode}
    (hi : s.ths[i]? = some t) (hj : s.ths[j]? = some u) (hij : i ≠ j)
    (ht : (l, .wr) ∈ t.held) : (l, m) ∉ u.held := by
  intro hu
  have hw := total_pos hi ht
  have h1 := hs.wr l
  have hwr : (s.sem l).writer = true := by
    cases h : (s.sem l).writer with
    | true => rfl
    | false => rw [h] at h1; simp at h1; omega
  rw [hwr] at h1
  simp at h1
  cases m with
  | rd =>
    have := total_pos hj hu
    have h2 := hs.rd l
    have h3 := hs.ex l hwr
    omega
  | wr =>
    have := total_two hi hj hij ht hu
    omega

/-- a lock that is not free is held by somebody. -/
theorem not_free_held {n : Nat} {s : State} (hs : Inv n s) {l : Lock} {m : Mode}
    (hf : (s.sem l).free m = false) : ∃ u ∈ s.ths, ∃ m', (l, m') ∈ u.held := by
  have h1 := hs.wr l
  have h2 := hs.rd l
  cases hw : (s.sem l).writer with
  | true =>
    rw [hw] at h1
    simp at h1
    obtain ⟨u, hu, hx⟩ := exists_of_total_pos (ths := s.ths) (x := (l, .wr)) (by omega)
    exact ⟨u, hu, _, hx⟩
  | false =>
    cases m with
    | rd => simp [Sem.free, hw] at hf
    | wr =>
      simp [Sem.free, hw] at hf
      obtain ⟨u, hu, hx⟩ := exists_of_total_pos (ths := s.ths) (x := (l, .rd)) (by omega)
      exact ⟨u, hu, _, hx⟩

/-- among waiting threads one waits for a last lock in the order. -/
theorem exists_last (ls : List Lock) (hne : ls ≠ []) : ∃ l ∈ ls, ∀ x ∈ ls, ¬ l.before x := by
  induction ls with
  | nil => exact absurd rfl hne
  | cons a as ih =>
    by_cases h : as = []
    · subst h
      refine ⟨a, by simp, fun x hx => ?_⟩
      rw [List.mem_singleton.1 hx]; exact a.before_irrefl
    · obtain ⟨l, hl, hm⟩ := ih h
      by_cases hb : l.before a
      · refine ⟨a, by simp, fun x hx => ?_⟩
        rcases List.mem_cons.1 hx with rfl | hx
        · exact x.before_irrefl
        · exact fun h' => hm x hx (Lock.before_trans hb h')
      · refine ⟨l, by simp [hl], fun x hx => ?_⟩
        rcases List.mem_cons.1 hx with rfl | hx
        · exact hb
        · exact hm x hx

/-- size of a program. -/
def Prog.size : Prog → Nat
  | .done => 0
  | .acq _ _ k => k.size + 1
  | .tryAcq _ _ a b => a.size + b.size + 1
  | .rel _ _ k => k.size + 1
  | .note _ _ k => k.size + 1

end Verif.MetaLock
