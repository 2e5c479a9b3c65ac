import Verif.Model.Composite

namespace Verif.Composite

/-- sum of the lengths of the first `i` members -/
def startAt (ms : List Member) (i : Nat) : Nat := ((ms.take i).map (·.len)).sum

theorem startAt_succ (ms : List Member) (i : Nat) (h : i < ms.length) :
    startAt ms (i + 1) = startAt ms i + ms[i].len := by
  rw [startAt, List.take_add_one, List.getElem?_eq_getElem h]
  simp only [startAt, Option.toList_some, List.map_append, List.map_cons, List.map_nil,
    List.sum_append, List.sum_cons, List.sum_nil, Nat.add_zero]

theorem startAt_mono (ms : List Member) (i : Nat) : startAt ms i ≤ startAt ms (i + 1) := by
  by_cases h : i < ms.length
  · rw [startAt_succ ms i h]; omega
  · simp [startAt, List.take_of_length_le (Nat.le_of_not_lt h),
      List.take_of_length_le (show ms.length ≤ i + 1 by omega)]

theorem endAddrs_length (a : Nat) (ms : List Member) : (endAddrs a ms).length = ms.length := by
  induction ms generalizing a with
  | nil => rfl
  | cons m ms ih => simp [endAddrs, ih]

theorem endAddrs_get (a : Nat) (ms : List Member) (i : Nat) (h : i < ms.length) :
    (endAddrs a ms).getD i 0 = a + startAt ms (i + 1) := by
  induction ms generalizing a i with
  | nil => simp at h
  | cons m ms ih =>
    cases i with
    | zero => simp [endAddrs, startAt]
    | succ i =>
      have := ih (a + m.len) i (by simpa using h)
      simp only [endAddrs, List.getD_cons_succ, this]
      simp [startAt]; omega

theorem endAt_open (ms : List Member) (i : Nat) (h : i < ms.length) :
    (openVol ms).endAt i = startAt ms (i + 1) := by
  have := endAddrs_get 0 ms i h
  simp only [openVol, Vol.endAt, this, Nat.zero_add]

theorem length_open (ms : List Member) : (openVol ms).length = startAt ms ms.length := by
  cases hms : ms with
  | nil => rfl
  | cons m l =>
    have hl : ms.length - 1 < ms.length := by simp [hms]
    have := endAt_open ms (ms.length - 1) hl
    rw [← hms]
    have h1 : ms.length - 1 + 1 = ms.length := by omega
    rw [h1] at this
    rw [← this]
    simp only [openVol, Vol.endAt, List.getLast?_eq_getElem?, endAddrs_length,
      List.getD_eq_getElem?_getD]

theorem seek_spec (ms : List Member) (addr i : Nat) (hi : startAt ms i ≤ addr)
    (hin : i ≤ ms.length) (ha : addr < startAt ms ms.length) :
    let j := (openVol ms).seek addr i
    j < ms.length ∧ startAt ms j ≤ addr ∧ addr < startAt ms (j + 1) := by
  fun_induction Vol.seek (openVol ms) addr i with
  | case1 i hlt hge ih =>
    have hlt' : i < ms.length := hlt
    rw [endAt_open ms i hlt'] at hge
    exact ih hge (by omega)
  | case2 i hlt hge =>
    have hlt' : i < ms.length := hlt
    rw [endAt_open ms i hlt'] at hge
    exact ⟨hlt', hi, by omega⟩
  | case3 i hlt =>
    have hlt' : ¬ i < ms.length := hlt
    have : i = ms.length := by omega
    subst this; omega

end Verif.Composite
