import Verif.Lemma.LruClean
import Verif.Model.ReqRef

/-!
Ownership of references. Every function gets a signature: references, parts and the duty to call the end
function that it takes over, and what it gives back by the value returned. `chk` computes whether a program
keeps to it; a run of programs that do keeps the books.
-/

namespace Verif.ReqRef

/-- references, parts, duty to call the end function. -/
structure Res where
  r : Nat
  h : Nat
  c : Nat
deriving DecidableEq, Repr

def Res.add (x y : Res) : Res := ⟨x.r + y.r, x.h + y.h, x.c + y.c⟩

def Res.sub (x y : Res) : Res := ⟨x.r - y.r, x.h - y.h, x.c - y.c⟩

def Res.le (x y : Res) : Bool := decide (x.r ≤ y.r ∧ x.h ≤ y.h ∧ x.c ≤ y.c)

def zero : Res := ⟨0, 0, 0⟩

/-- may use the request. -/
def Res.acc (x : Res) : Bool := decide (0 < x.r ∨ 0 < x.h ∨ 0 < x.c)

structure Sig where
  pre : Res
  yes : Res
  no : Res
deriving DecidableEq, Repr

def eng : Sig := ⟨⟨2, 0, 1⟩, zero, zero⟩
def one : Sig := ⟨⟨1, 0, 0⟩, zero, zero⟩
def share : Sig := ⟨⟨0, 1, 0⟩, zero, zero⟩
def start : Sig := ⟨⟨0, 0, 1⟩, zero, zero⟩

def sig : Fn → Sig
  | .reqComplete | .hndlDiscard | .hndlFlush | .d2cIo | .d2cFlush | .d2cDiscard => ⟨⟨1, 0, 1⟩, ⟨0, 0, 0⟩, ⟨0, 0,
    0⟩⟩
  | .submitIo | .submitFlush | .submitDiscard => start
  | .submitIoFast | .hndlReq | .hndlFast => ⟨⟨1, 0, 1⟩, ⟨0, 0, 0⟩, ⟨1, 0, 1⟩⟩
  | .onResume | .refresh | .cleanEnd | .rdHitEnd | .rdMissEnd | .rdSubmitHit | .rdSubmitMiss | .rdDo |
    .readGeneric | .ptEnd | .ptDo | .readPt | .wtFlushEnd | .wtFlush | .wtSubmit | .wtDo | .writeWt |
    .wbFlushEnd | .wbFlush | .wbEnd | .wbSubmit | .wbDo | .writeWb | .wiNext | .wiFlushEnd | .wiUpdate |
    .wiCoreEnd | .wiCore | .wiResume | .writeWi | .writeWa | .woCacheEnd | .woCacheDo | .woCoreEnd | .woDo |
    .readWo | .fastEnd | .fastDo | .d2cEnd | .flush | .discEnd | .discCore | .discFlushEnd | .discFlush |
    .discFinish | .discStepDo | .discResume | .discStep | .discard => eng
  | .invalidate | .invalidateDo | .invalidateEnd | .backfill | .backfillDo | .backfillEnd | .backfillUpdate =>
    one
  | .wtPart | .wtCacheEnd | .wtCoreEnd | .flushEnd | .discPart => share
  | .readFast | .writeFast => ⟨⟨2, 0, 1⟩, ⟨0, 0, 0⟩, ⟨2, 0, 1⟩⟩

/-- Functions that keep to their signature. -/
def good (e : Env) : Fn → Bool
  | .d2cFlush => false
  | .d2cDiscard => false
  | .submitFlush => !e.d2c
  | .submitDiscard => !e.d2c && !e.noMem && !e.late
  | .hndlDiscard | .discard | .discStep | .discFinish | .discPart | .discStepDo => !e.late
  | _ => true

def engOk (e : Env) (f : Fn) : Bool := good e f && decide (sig f = eng)

def chk (e : Env) (py pn : Res) : Prog → Res → Bool
  | .ret b, x => decide (x = if b then py else pn)
  | .get k, x => x.acc && chk e py pn k ⟨x.r + 1, x.h, x.c⟩
  | .put k, x => decide (0 < x.r) && chk e py pn k ⟨x.r - 1, x.h, x.c⟩
  | .use k, x => x.acc && chk e py pn k x
  | .endCb k, x => decide (0 < x.c) && chk e py pn k ⟨x.r, x.h, x.c - 1⟩
  | .call f y o, x => good e f && (sig f).pre.le x && chk e py pn y ((x.sub (sig f).pre).add (sig f).yes) &&
      chk e py pn o ((x.sub (sig f).pre).add (sig f).no)
  | .spawn f k, x => good e f && (sig f).pre.le x && decide ((sig f).yes = zero) && decide ((sig f).no = zero) &&
      chk e py pn k (x.sub (sig f).pre)
  | .setH f k, x => x.acc && engOk e f && chk e py pn k x
  | .chooseH fs k, x => x.acc && fs.all (engOk e) && chk e py pn k x
  | .pushH k, x => eng.pre.le x && chk e py pn k (x.sub eng.pre)
  | .callH k, x => eng.pre.le x && chk e py pn k (x.sub eng.pre)
  | .savePriv k, x => x.acc && chk e py pn k x
  | .loadPriv k, x => x.acc && chk e py pn k x
  | .either a b, x => chk e py pn a x && chk e py pn b x
  | .remSet n k, x => decide (0 < n) && decide (2 ≤ x.r) && decide (0 < x.c) && decide (x.h = 0) &&
      chk e py pn k ⟨x.r - 2, n, x.c - 1⟩
  | .remInc k, x => decide (0 < x.h) && chk e py pn k ⟨x.r, x.h + 1, x.c⟩
  | .remDec z o, x => decide (0 < x.h) && chk e py pn z ⟨x.r + 2, x.h - 1, x.c + 1⟩ && chk e py pn o ⟨x.r, x.h - 1, x.c⟩

/-- Every good function keeps to its signature. -/
theorem body_chk (e : Env) (f : Fn) (hg : good e f = true) :
    chk e (sig f).yes (sig f).no (body e f) (sig f).pre = true := by
  revert hg
  obtain ⟨a, b, c⟩ := e
  cases a <;> cases b <;> cases c <;> cases f <;> decide

/-- The callers: `py`, `pn` is what the function above gives back, `fr` what they hold together. -/
inductive StackOk (e : Env) : List (Prog × Prog) → Res → Res → Res → Prop where
  | nil : StackOk e [] zero zero zero
  | cons {y o : Prog} {st : List (Prog × Prog)} {py pn py' pn' fr rest : Res} :
      chk e py' pn' y (fr.add py) = true → chk e py' pn' o (fr.add pn) = true → StackOk e st py' pn' rest →
      StackOk e ((y, o) :: st) py pn (fr.add rest)

/-- thread `t` holds `x`. -/
def Typed (e : Env) (t : Thread) (x : Res) : Prop :=
  ∃ py pn cur fr, chk e py pn t.cur cur = true ∧ StackOk e t.stack py pn fr ∧ x = cur.add fr

def sumR (xs : List Res) : Nat := (xs.map Res.r).sum
def sumH (xs : List Res) : Nat := (xs.map Res.h).sum
def sumC (xs : List Res) : Nat := (xs.map Res.c).sum

/-- The numbers. -/
structure Num (e : Env) (s : St) (xs : List Res) : Prop where
  refs : s.refs = s.owner.toNat + sumR xs + (if s.rem = 0 then 0 else 2)
  rem : sumH xs = s.rem
  ends : s.ends + sumC xs + (if s.rem = 0 then 0 else 1) = 1
  owner : s.owner = false → s.ends = 1
  bad : s.bad = false
  handler : engOk e s.handler = true
  priv : engOk e s.priv = true

structure Inv (e : Env) (s : St) (xs : List Res) : Prop where
  len : xs.length = s.threads.length
  typed : ∀ (i : Nat) (t : Thread) (x : Res), s.threads[i]? = some t → xs[i]? = some x → Typed e t x
  num : Num e s xs

theorem acc_refs {e : Env} {s : St} {xs : List Res} (hn : Num e s xs) {i : Nat} {x cur fr : Res}
    (hx : xs[i]? = some x) (he : x = cur.add fr) (ha : cur.acc = true) : 0 < s.refs := by
  have hm : x ∈ xs := List.mem_of_getElem? hx
  have h1 : x.r ≤ sumR xs := le_sum_map Res.r xs x hm
  have h2 : x.h ≤ sumH xs := le_sum_map Res.h xs x hm
  have h3 : x.c ≤ sumC xs := le_sum_map Res.c xs x hm
  have k1 := hn.refs
  have k2 := hn.rem
  have k3 := hn.ends
  have k4 := hn.owner
  unfold Res.acc at ha
  replace ha := of_decide_eq_true ha
  subst he
  simp only [Res.add] at h1 h2 h3
  rcases ha with ha | ha | ha
  · omega
  · rw [if_neg (by omega)] at k1; omega
  · cases ho : s.owner
    · have := k4 ho; omega
    · rw [ho] at k1; simp only [Bool.toNat_true] at k1; omega

theorem touch_eq {s : St} (h : 0 < s.refs) (hb : s.bad = false) : s.touch = s := by
  unfold St.touch
  rw [show (s.bad || decide (s.refs = 0)) = s.bad by
    rw [hb, decide_eq_false (by omega)]; rfl]

theorem set_getElem? {α} {l : List α} {i j : Nat} {a b : α} (h : (l.set i a)[j]? = some b) :
    (j = i ∧ b = a) ∨ (j ≠ i ∧ l[j]? = some b) := by
  by_cases hij : i = j
  · subst hij
    rw [List.getElem?_set_self'] at h
    cases hl : l[i]? with
    | none => rw [hl] at h; cases h
    | some c => rw [hl] at h; cases h; exact Or.inl ⟨rfl, rfl⟩
  · rw [List.getElem?_set_ne hij] at h
    exact Or.inr ⟨fun e => hij e.symm, h⟩

theorem sums_set {xs : List Res} {i : Nat} {x y : Res} (h : xs[i]? = some x) :
    sumR (xs.set i y) + x.r = sumR xs + y.r ∧ sumH (xs.set i y) + x.h = sumH xs + y.h ∧
    sumC (xs.set i y) + x.c = sumC xs + y.c :=
  ⟨sum_map_set _ _ _ _ _ h, sum_map_set _ _ _ _ _ h, sum_map_set _ _ _ _ _ h⟩

theorem sums_app (xs : List Res) (y : Res) :
    sumR (xs ++ [y]) = sumR xs + y.r ∧ sumH (xs ++ [y]) = sumH xs + y.h ∧ sumC (xs ++ [y]) = sumC xs + y.c := by
  unfold sumR sumH sumC
  simp

/-- Thread `i` goes on as `t'` with `x'`. -/
theorem moveI {e : Env} {s s' : St} {xs : List Res} {i : Nat} {t' : Thread} {x' : Res} (hs : Inv e s xs)
    (ht : s'.threads = s.threads.set i t') (hty : Typed e t' x') (hn : Num e s' (xs.set i x')) :
    Inv e s' (xs.set i x') where
  len := by rw [List.length_set, hs.len, ht, List.length_set]
  typed := by
    intro j t x h1 h2
    rw [ht] at h1
    rcases set_getElem? h1 with ⟨e1, e2⟩ | ⟨e1, e2⟩
    · rcases set_getElem? h2 with ⟨e3, e4⟩ | ⟨e3, e4⟩
      · rw [e2, e4]; exact hty
      · exact absurd e1 e3
    · rcases set_getElem? h2 with ⟨e3, e4⟩ | ⟨e3, e4⟩
      · exact absurd e3 e1
      · exact hs.typed j t x e2 e4
  num := hn

/-- and a new thread begins with `y`. -/
theorem spawnI {e : Env} {s s' : St} {xs : List Res} {i : Nat} {t' : Thread} {x' y : Res} {p : Prog} (hs : Inv e s xs)
    (ht : s'.threads = s.threads.set i t' ++ [⟨p, []⟩]) (hty : Typed e t' x') (hp : Typed e ⟨p, []⟩ y)
    (hn : Num e s' (xs.set i x' ++ [y])) : Inv e s' (xs.set i x' ++ [y]) where
  len := by rw [List.length_append, List.length_set, hs.len, ht, List.length_append, List.length_set]; rfl
  typed := by
    intro j t x h1 h2
    rw [ht] at h1
    have hl := hs.len
    by_cases hj : j < s.threads.length
    · rw [List.getElem?_append_left (by rw [List.length_set]; exact hj)] at h1
      rw [List.getElem?_append_left (by rw [List.length_set]; omega)] at h2
      rcases set_getElem? h1 with ⟨e1, e2⟩ | ⟨e1, e2⟩
      · rcases set_getElem? h2 with ⟨e3, e4⟩ | ⟨e3, e4⟩
        · rw [e2, e4]; exact hty
        · exact absurd e1 e3
      · rcases set_getElem? h2 with ⟨e3, e4⟩ | ⟨e3, e4⟩
        · exact absurd e3 e1
        · exact hs.typed j t x e2 e4
    · rw [List.getElem?_append_right (by rw [List.length_set]; omega)] at h1 h2
      rw [List.length_set] at h1 h2
      by_cases h0 : j - s.threads.length = 0
      · rw [h0] at h1
        rw [hl, h0] at h2
        simp only [List.getElem?_cons_zero] at h1 h2
        cases h1
        cases h2
        exact hp
      · rw [List.getElem?_eq_none (by simp only [List.length_cons, List.length_nil]; omega)] at h1
        cases h1
  num := hn

theorem and_true' {a b : Bool} (h : (a && b) = true) : a = true ∧ b = true := by
  cases a <;> cases b <;> simp_all

theorem typed_of {e : Env} {p : Prog} {st : List (Prog × Prog)} {py pn cur fr : Res} (h : chk e py pn p cur = true)
    (hf : StackOk e st py pn fr) : Typed e ⟨p, st⟩ (cur.add fr) := ⟨py, pn, cur, fr, h, hf, rfl⟩

theorem typed_void {e : Env} {f : Fn} (hg : good e f = true) (hy : (sig f).yes = zero) (hn : (sig f).no = zero) :
    Typed e ⟨void f ok, []⟩ (sig f).pre := by
  have h : chk e zero zero (void f ok) (sig f).pre = true := by
    have h1 : (((sig f).pre.sub (sig f).pre).add zero) = zero := by
      simp [Res.sub, Res.add, zero]
    simp [void, chk, ok, hg, hy, hn, h1, Res.le]
  have := typed_of h StackOk.nil
  rw [show (sig f).pre.add zero = (sig f).pre from by simp [Res.add, zero]] at this
  exact this

theorem typed_callH {e : Env} : Typed e ⟨.callH ok, []⟩ eng.pre := by
  have h : chk e zero zero (.callH ok) eng.pre = true := rfl
  exact typed_of h StackOk.nil

theorem le_of {x y : Res} (h : x.le y = true) : x.r ≤ y.r ∧ x.h ≤ y.h ∧ x.c ≤ y.c := of_decide_eq_true h

theorem diffN {e : Env} {s s' : St} {xs xs' : List Res} (hN : Num e s xs) (er : s'.rem = s.rem) (eo : s'.owner = s.owner)
    (eb : s'.bad = s.bad) (eh : engOk e s'.handler = true) (ep : engOk e s'.priv = true)
    (h1 : s'.refs + sumR xs = s.refs + sumR xs') (h2 : sumH xs' = sumH xs)
    (h3 : s'.ends + sumC xs' = s.ends + sumC xs) (h4 : s.ends ≤ s'.ends) : Num e s' xs' := by
  have k1 := hN.refs
  have k2 := hN.rem
  have k3 := hN.ends
  have k4 := hN.owner
  refine ⟨?_, by rw [h2, er]; exact k2, ?_, ?_, by rw [eb]; exact hN.bad, eh, ep⟩
  · rw [eo, er]
    generalize (if s.rem = 0 then 0 else 2) = K at *
    omega
  · rw [er]
    generalize (if s.rem = 0 then 0 else 1) = K at *
    omega
  · rw [eo]
    intro h0
    have := k4 h0
    omega

theorem step_inv {e : Env} {s : St} {xs : List Res} (hs : Inv e s xs) {i : Nat} (c : Bool) (n : Nat) {t : Thread}
    (hi : s.threads[i]? = some t) : ∃ xs', Inv e (s.step e i c n t) xs' := by
  have hlt : i < xs.length := by
    rw [hs.len]
    exact Classical.byContradiction fun hh => by
      rw [List.getElem?_eq_none (by omega)] at hi; cases hi
  obtain ⟨x, hx⟩ : ∃ x, xs[i]? = some x := ⟨xs[i], List.getElem?_eq_getElem hlt⟩
  obtain ⟨py, pn, cur, fr, hc, hf, he⟩ := hs.typed i t x hi hx
  have hN := hs.num
  have k1 := hN.refs
  have k2 := hN.rem
  have k3 := hN.ends
  have k4 := hN.owner
  have hset := fun y => @sums_set xs i x y hx
  have hacc : cur.acc = true → s.touch = s := fun ha => touch_eq (acc_refs hN hx he ha) hN.bad
  have hxr : x.r = cur.r + fr.r := by rw [he]; rfl
  have hxh : x.h = cur.h + fr.h := by rw [he]; rfl
  have hxc : x.c = cur.c + fr.c := by rw [he]; rfl
  have hin : x.h ≤ sumH xs := le_sum_map Res.h xs x (List.mem_of_getElem? hx)
  have hinc : x.c ≤ sumC xs := le_sum_map Res.c xs x (List.mem_of_getElem? hx)
  have hinr : x.r ≤ sumR xs := le_sum_map Res.r xs x (List.mem_of_getElem? hx)
  -- same numbers
  have same : ∀ (s' : St) (y : Res), y.r = x.r → y.h = x.h → y.c = x.c → s'.refs = s.refs → s'.rem = s.rem →
      s'.ends = s.ends → s'.owner = s.owner → s'.bad = s.bad → engOk e s'.handler = true → engOk e s'.priv = true →
      Num e s' (xs.set i y) := by
    intro s' y e1 e2 e3 e4 e5 e6 e7 e8 e9 e10
    obtain ⟨a1, a2, a3⟩ := hset y
    exact ⟨by rw [e4, e5, e7, k1]; omega, by rw [e5]; omega, by rw [e6, e5]; omega, by rw [e7, e6]; exact k4,
      by rw [e8]; exact hN.bad, e9, e10⟩
  obtain ⟨p, st⟩ := t
  cases p with
  | ret b =>
    cases hst : st with
    | nil =>
      refine ⟨xs, ?_⟩
      show Inv e s xs
      exact hs
    | cons yo st' =>
      obtain ⟨y, o⟩ := yo
      subst hst
      cases hf with
      | @cons _ _ _ _ _ py' pn' fr' rest h1 h2 h3 =>
        have hcur : cur = if b then py else pn := of_decide_eq_true hc
        have ht : Typed e ⟨if b then y else o, st'⟩ ((fr'.add cur).add rest) := by
          cases b
          · rw [hcur]; exact typed_of h2 h3
          · rw [hcur]; exact typed_of h1 h3
        refine ⟨_, moveI (t' := ⟨if b then y else o, st'⟩) hs rfl ht (same _ _ ?_ ?_ ?_ rfl rfl rfl rfl rfl hN.handler hN.priv)⟩
        · simp only [Res.add] at hxr ⊢; omega
        · simp only [Res.add] at hxh ⊢; omega
        · simp only [Res.add] at hxc ⊢; omega
  | get k =>
    obtain ⟨h1, h2⟩ := and_true' hc
    refine ⟨_, moveI (t' := ⟨k, st⟩) hs (by simp only [St.step, hacc h1]; rfl) (typed_of h2 hf) ?_⟩
    obtain ⟨a1, a2, a3⟩ := hset ((⟨cur.r + 1, cur.h, cur.c⟩ : Res).add fr)
    simp only [Res.add] at a1 a2 a3
    simp only [St.step, hacc h1]
    refine diffN hN rfl rfl rfl hN.handler hN.priv ?_ ?_ ?_ (Nat.le_refl _)
    · simp only [Res.add]; omega
    · simp only [Res.add]; omega
    · simp only [Res.add, St.go]; omega
  | put k =>
    obtain ⟨h1, h2⟩ := and_true' hc
    replace h1 := of_decide_eq_true h1
    have ha : cur.acc = true := decide_eq_true (Or.inl h1)
    refine ⟨_, moveI (t' := ⟨k, st⟩) hs (by simp only [St.step, hacc ha]; rfl) (typed_of h2 hf) ?_⟩
    obtain ⟨a1, a2, a3⟩ := hset ((⟨cur.r - 1, cur.h, cur.c⟩ : Res).add fr)
    simp only [Res.add] at a1 a2 a3
    simp only [St.step, hacc ha]
    refine diffN hN rfl rfl rfl hN.handler hN.priv ?_ ?_ ?_ (Nat.le_refl _)
    · simp only [Res.add]; omega
    · simp only [Res.add]; omega
    · simp only [Res.add, St.go]; omega
  | use k =>
    obtain ⟨h1, h2⟩ := and_true' hc
    refine ⟨_, moveI (t' := ⟨k, st⟩) hs (by simp only [St.step, hacc h1]; rfl) (typed_of h2 hf) ?_⟩
    simp only [St.step, hacc h1]
    exact same _ _ hxr.symm hxh.symm hxc.symm rfl rfl rfl rfl rfl hN.handler hN.priv
  | endCb k =>
    obtain ⟨h1, h2⟩ := and_true' hc
    replace h1 := of_decide_eq_true h1
    have ha : cur.acc = true := decide_eq_true (Or.inr (Or.inr h1))
    refine ⟨_, moveI (t' := ⟨k, st⟩) hs (by simp only [St.step, hacc ha]; rfl) (typed_of h2 hf) ?_⟩
    obtain ⟨a1, a2, a3⟩ := hset ((⟨cur.r, cur.h, cur.c - 1⟩ : Res).add fr)
    simp only [Res.add] at a1 a2 a3
    simp only [St.step, hacc ha]
    refine diffN hN rfl rfl rfl hN.handler hN.priv ?_ ?_ ?_ (Nat.le_succ _)
    · simp only [Res.add, St.go]; omega
    · simp only [Res.add]; omega
    · simp only [Res.add]; omega
  | call f y o =>
    obtain ⟨h1, h4⟩ := and_true' hc
    obtain ⟨h1, h3⟩ := and_true' h1
    obtain ⟨h1, h2⟩ := and_true' h1
    obtain ⟨l1, l2, l3⟩ := le_of h2
    refine ⟨_, moveI (t' := ⟨body e f, (y, o) :: st⟩) hs rfl (typed_of (body_chk e f h1) (StackOk.cons h3 h4 hf))
      (same _ _ ?_ ?_ ?_ rfl rfl rfl rfl rfl hN.handler hN.priv)⟩
    · simp only [Res.add, Res.sub]; omega
    · simp only [Res.add, Res.sub]; omega
    · simp only [Res.add, Res.sub]; omega
  | spawn f k =>
    obtain ⟨h1, h5⟩ := and_true' hc
    obtain ⟨h1, h4⟩ := and_true' h1
    obtain ⟨h1, h3⟩ := and_true' h1
    obtain ⟨h1, h2⟩ := and_true' h1
    obtain ⟨l1, l2, l3⟩ := le_of h2
    refine ⟨_, spawnI (t' := ⟨k, st⟩) (p := void f ok) hs rfl (typed_of h5 hf)
      (typed_void h1 (of_decide_eq_true h3) (of_decide_eq_true h4)) ?_⟩
    obtain ⟨a1, a2, a3⟩ := hset ((cur.sub (sig f).pre).add fr)
    obtain ⟨b1, b2, b3⟩ := sums_app (xs.set i ((cur.sub (sig f).pre).add fr)) (sig f).pre
    simp only [Res.add, Res.sub] at a1 a2 a3 b1 b2 b3
    refine diffN hN rfl rfl rfl hN.handler hN.priv ?_ ?_ ?_ (Nat.le_refl _)
    · simp only [St.step, St.go, St.start, Res.add, Res.sub]; omega
    · simp only [Res.add, Res.sub]; omega
    · simp only [St.step, St.go, St.start, Res.add, Res.sub]; omega
  | setH f k =>
    obtain ⟨h1, h3⟩ := and_true' hc
    obtain ⟨h1, h2⟩ := and_true' h1
    refine ⟨_, moveI (t' := ⟨k, st⟩) hs (by simp only [St.step, hacc h1]; rfl) (typed_of h3 hf) ?_⟩
    simp only [St.step, hacc h1]
    exact same _ _ hxr.symm hxh.symm hxc.symm rfl rfl rfl rfl rfl h2 hN.priv
  | chooseH fs k =>
    obtain ⟨h1, h3⟩ := and_true' hc
    obtain ⟨h1, h2⟩ := and_true' h1
    refine ⟨_, moveI (t' := ⟨k, st⟩) hs (by simp only [St.step, hacc h1]; rfl) (typed_of h3 hf) ?_⟩
    simp only [St.step, hacc h1]
    refine same _ _ hxr.symm hxh.symm hxc.symm rfl rfl rfl rfl rfl ?_ hN.priv
    show engOk e (fs.getD n s.handler) = true
    rw [List.getD_eq_getElem?_getD]
    cases hg : fs[n]? with
    | none => exact hN.handler
    | some f => exact List.all_eq_true.1 h2 f (List.mem_of_getElem? hg)
  | pushH k =>
    obtain ⟨h1, h2⟩ := and_true' hc
    obtain ⟨l1, l2, l3⟩ := le_of h1
    simp only [eng] at l1 l2 l3
    have ha : cur.acc = true := decide_eq_true (Or.inl (by omega))
    refine ⟨_, spawnI (t' := ⟨k, st⟩) (p := .callH ok) hs (by simp only [St.step, hacc ha]; rfl) (typed_of h2 hf) typed_callH ?_⟩
    obtain ⟨a1, a2, a3⟩ := hset ((cur.sub eng.pre).add fr)
    obtain ⟨b1, b2, b3⟩ := sums_app (xs.set i ((cur.sub eng.pre).add fr)) eng.pre
    simp only [Res.add, Res.sub, eng] at a1 a2 a3 b1 b2 b3
    simp only [St.step, hacc ha]
    refine diffN hN rfl rfl rfl hN.handler hN.priv ?_ ?_ ?_ (Nat.le_refl _)
    · simp only [St.go, St.start, Res.add, Res.sub, eng]; omega
    · simp only [Res.add, Res.sub, eng]; omega
    · simp only [St.go, St.start, Res.add, Res.sub, eng]; omega
  | callH k =>
    obtain ⟨h1, h2⟩ := and_true' hc
    obtain ⟨l1, l2, l3⟩ := le_of h1
    have ha : cur.acc = true := decide_eq_true (Or.inl (by simp only [eng] at l1; omega))
    obtain ⟨g1, g2⟩ := and_true' hN.handler
    replace g2 := of_decide_eq_true g2
    have hb := body_chk e s.handler g1
    rw [g2] at hb
    have h3 : chk e py pn k ((cur.sub eng.pre).add eng.yes) = true := h2
    have h4 : chk e py pn k ((cur.sub eng.pre).add eng.no) = true := h2
    refine ⟨_, moveI (t' := ⟨body e s.handler, (k, k) :: st⟩) hs (by simp only [St.step, hacc ha]; rfl)
      (typed_of hb (StackOk.cons h3 h4 hf)) ?_⟩
    simp only [St.step, hacc ha]
    refine same _ _ ?_ ?_ ?_ rfl rfl rfl rfl rfl hN.handler hN.priv
    · simp only [Res.add, Res.sub]; omega
    · simp only [Res.add, Res.sub]; omega
    · simp only [Res.add, Res.sub]; omega
  | savePriv k =>
    obtain ⟨h1, h2⟩ := and_true' hc
    refine ⟨_, moveI (t' := ⟨k, st⟩) hs (by simp only [St.step, hacc h1]; rfl) (typed_of h2 hf) ?_⟩
    simp only [St.step, hacc h1]
    exact same _ _ hxr.symm hxh.symm hxc.symm rfl rfl rfl rfl rfl hN.handler hN.handler
  | loadPriv k =>
    obtain ⟨h1, h2⟩ := and_true' hc
    refine ⟨_, moveI (t' := ⟨k, st⟩) hs (by simp only [St.step, hacc h1]; rfl) (typed_of h2 hf) ?_⟩
    simp only [St.step, hacc h1]
    exact same _ _ hxr.symm hxh.symm hxc.symm rfl rfl rfl rfl rfl hN.priv hN.priv
  | either a b =>
    obtain ⟨h1, h2⟩ := and_true' hc
    have ht : Typed e ⟨if c then a else b, st⟩ (cur.add fr) := by
      cases c
      · exact typed_of h2 hf
      · exact typed_of h1 hf
    exact ⟨_, moveI (t' := ⟨if c then a else b, st⟩) hs rfl ht
      (same _ _ hxr.symm hxh.symm hxc.symm rfl rfl rfl rfl rfl hN.handler hN.priv)⟩
  | remSet m k =>
    obtain ⟨h1, h5⟩ := and_true' hc
    obtain ⟨h1, h4⟩ := and_true' h1
    obtain ⟨h1, h3⟩ := and_true' h1
    obtain ⟨h1, h2⟩ := and_true' h1
    replace h1 := of_decide_eq_true h1
    replace h2 := of_decide_eq_true h2
    replace h3 := of_decide_eq_true h3
    replace h4 := of_decide_eq_true h4
    have ha : cur.acc = true := decide_eq_true (Or.inl (by omega))
    have hr0 : s.rem = 0 := by
      by_cases h0 : s.rem = 0
      · exact h0
      · rw [if_neg h0] at k3; omega
    rw [hr0] at k2
    rw [if_pos hr0] at k1 k3
    refine ⟨_, moveI (t' := ⟨k, st⟩) hs (by simp only [St.step, hacc ha]; rfl) (typed_of h5 hf) ?_⟩
    obtain ⟨a1, a2, a3⟩ := hset ((⟨cur.r - 2, m, cur.c - 1⟩ : Res).add fr)
    simp only [Res.add] at a1 a2 a3
    simp only [St.step, hacc ha]
    have hm : m ≠ 0 := by omega
    refine ⟨?_, ?_, ?_, k4, hN.bad, hN.handler, hN.priv⟩
    · simp only [St.go, Res.add, if_neg hm]; omega
    · simp only [St.go, Res.add]; omega
    · simp only [St.go, Res.add, if_neg hm]; omega
  | remInc k =>
    obtain ⟨h1, h2⟩ := and_true' hc
    replace h1 := of_decide_eq_true h1
    have ha : cur.acc = true := decide_eq_true (Or.inr (Or.inl h1))
    have hr0 : s.rem ≠ 0 := by omega
    have hr1 : s.rem + 1 ≠ 0 := by omega
    rw [if_neg hr0] at k1 k3
    refine ⟨_, moveI (t' := ⟨k, st⟩) hs (by simp only [St.step, hacc ha]; rfl) (typed_of h2 hf) ?_⟩
    obtain ⟨a1, a2, a3⟩ := hset ((⟨cur.r, cur.h + 1, cur.c⟩ : Res).add fr)
    simp only [Res.add] at a1 a2 a3
    simp only [St.step, hacc ha]
    refine ⟨?_, ?_, ?_, k4, hN.bad, hN.handler, hN.priv⟩
    · simp only [St.go, Res.add, if_neg hr1]; omega
    · simp only [St.go, Res.add]; omega
    · simp only [St.go, Res.add, if_neg hr1]; omega
  | remDec z o =>
    obtain ⟨h1, h3⟩ := and_true' hc
    obtain ⟨h1, h2⟩ := and_true' h1
    replace h1 := of_decide_eq_true h1
    have ha : cur.acc = true := decide_eq_true (Or.inr (Or.inl h1))
    have hr0 : s.rem ≠ 0 := by omega
    rw [if_neg hr0] at k1 k3
    by_cases hz : s.rem - 1 = 0
    · refine ⟨_, moveI (t' := ⟨z, st⟩) hs (by simp only [St.step, hacc ha, if_pos hz]; rfl) (typed_of h2 hf) ?_⟩
      obtain ⟨a1, a2, a3⟩ := hset ((⟨cur.r + 2, cur.h - 1, cur.c + 1⟩ : Res).add fr)
      simp only [Res.add] at a1 a2 a3
      simp only [St.step, hacc ha]
      refine ⟨?_, ?_, ?_, k4, hN.bad, hN.handler, hN.priv⟩
      · simp only [St.go, Res.add, if_pos hz]; omega
      · simp only [St.go, Res.add]; omega
      · simp only [St.go, Res.add, if_pos hz]; omega
    · refine ⟨_, moveI (t' := ⟨o, st⟩) hs (by simp only [St.step, hacc ha, if_neg hz]; rfl) (typed_of h3 hf) ?_⟩
      obtain ⟨a1, a2, a3⟩ := hset ((⟨cur.r, cur.h - 1, cur.c⟩ : Res).add fr)
      simp only [Res.add] at a1 a2 a3
      simp only [St.step, hacc ha]
      refine ⟨?_, ?_, ?_, k4, hN.bad, hN.handler, hN.priv⟩
      · simp only [St.go, Res.add, if_neg hz]; omega
      · simp only [St.go, Res.add]; omega
      · simp only [St.go, Res.add, if_neg hz]; omega

theorem init_inv {e : Env} {f : Fn} (hg : good e f = true) (hf : sig f = start) : ∃ xs, Inv e (init f) xs := by
  refine ⟨[⟨0, 0, 1⟩], rfl, ?_, ?_⟩
  · intro i t x h1 h2
    cases i with
    | zero =>
      cases h1
      cases h2
      have := typed_void hg (by rw [hf]; rfl) (by rw [hf]; rfl)
      rw [hf] at this
      exact this
    | succ i => simp [init] at h1
  · exact ⟨rfl, rfl, rfl, fun h => by simp [init] at h, rfl, by cases e; rename_i a b c; rfl, by cases e; rfl⟩

theorem run_inv {e : Env} {f : Fn} (hg : good e f = true) (hf : sig f = start) {s : St} (h : Run e (init f) s) :
    ∃ xs, Inv e s xs := by
  generalize hi : init f = a at h
  induction h with
  | refl => rw [← hi]; exact init_inv hg hf
  | step i c n _ ht ih =>
    obtain ⟨xs, hs⟩ := ih
    exact step_inv hs c n ht
  | @ownerPut s _ he ho ih =>
    obtain ⟨xs, hs⟩ := ih
    have hN := hs.num
    have k1 := hN.refs
    have k3 := hN.ends
    rw [ho] at k1
    simp only [Bool.toNat_true] at k1
    refine ⟨xs, ?_⟩
    rw [touch_eq (by omega) hN.bad]
    exact ⟨hs.len, hs.typed, by show s.refs - 1 = _; simp only [Bool.toNat_false]; omega, hN.rem, k3, fun _ => by show s.ends = 1; omega, hN.bad, hN.handler, hN.priv⟩

end Verif.ReqRef
