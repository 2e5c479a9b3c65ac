import Verif.Lemma.Common

/-!
Model of the index-based list container used for I/O classes.
Sources: `/repo/src/utils/utils_list.h`, `/repo/src/utils/utils_list.c`.
-/

namespace Verif.IdxList

/-- `struct ocf_lst` with the entries reached by its getter, `/repo/src/utils/utils_list.h:30-51`.
`inv` is `invalid`; the entry with that index is the head of the list. `warn` is raised by a failed
`OCF_LST_DBG_ON`, `bug` by `ENV_BUG` or an index outside the container
(`/repo/src/utils/utils_user_part.c:15-20`), `hang` by a loop running longer than the container
is large. -/
structure Lst where
  inv : Nat
  next : Nat → Nat
  prev : Nat → Nat
  warn : Bool
  bug : Bool
  hang : Bool

/-- Write a field of one entry (`struct ocf_lst_entry`, `/repo/src/utils/utils_list.h:30-33`). -/
def upd (f : Nat → Nat) (i x : Nat) : Nat → Nat := fun j => if j = i then x else f j

/-- `OCF_LST_ENTRY_OUT`, `/repo/src/utils/utils_list.h:28`. -/
def Lst.out (l : Lst) : Nat := l.inv + 1

/-- The bounds assertion of the getter, `/repo/src/utils/utils_user_part.c:15-20`. -/
def Lst.get (l : Lst) (i : Nat) : Lst := { l with bug := l.bug || decide (l.inv < i) }

/-- `ocf_lst_init_entry`, `/repo/src/utils/utils_list.h:53-57`. -/
def Lst.initEntry (l : Lst) (i : Nat) : Lst :=
  { l with next := upd l.next i l.out, prev := upd l.prev i l.out }

/-- The result of `ocf_lst_is_entry`, `/repo/src/utils/utils_list.h:59-72`. -/
def Lst.isEntry (l : Lst) (i : Nat) : Bool :=
  if l.next i = l.out ∧ l.prev i = l.out then false
  else decide (l.next i < l.out ∧ l.prev i < l.out)

/-- Whether `ocf_lst_is_entry`, `/repo/src/utils/utils_list.h:59-72`, reaches its `ENV_BUG`. -/
def Lst.entryBug (l : Lst) (i : Nat) : Bool :=
  !(decide (l.next i = l.out ∧ l.prev i = l.out)) &&
    !(decide (l.next i < l.out ∧ l.prev i < l.out))

/-- `OCF_LST_DBG_ON(lst, ocf_lst_is_entry(lst, i) == bad)`, `/repo/src/utils/utils_list.h:15-26`. -/
def Lst.dbg (l : Lst) (i : Nat) (bad : Bool) : Lst :=
  { l with warn := l.warn || (l.isEntry i == bad), bug := l.bug || l.entryBug i }

/-- `ocf_lst_init`, `/repo/src/utils/utils_list.h:74-95`. -/
def init (n : Nat) : Lst :=
  { inv := n, next := fun i => if i = n then n else n + 1, prev := fun i => if i = n then n else n + 1,
    warn := false, bug := false, hang := false }

/-- `ocf_lst_add_after`, `/repo/src/utils/utils_list.h:97-112`. -/
def Lst.addAfter (l : Lst) (at_ idx : Nat) : Lst :=
  let n := l.next at_
  let l := (((((l.get at_).get n).get idx).dbg idx true).dbg at_ false).dbg n false
  { l with
    next := upd (upd l.next idx n) at_ idx
    prev := upd (upd l.prev idx at_) n idx }

/-- `ocf_lst_add_before`, `/repo/src/utils/utils_list.h:114-129`. -/
def Lst.addBefore (l : Lst) (at_ idx : Nat) : Lst :=
  let p := l.prev at_
  let l := (((((l.get at_).get p).get idx).dbg idx true).dbg at_ false).dbg p false
  { l with
    next := upd (upd l.next idx at_) p idx
    prev := upd (upd l.prev idx p) at_ idx }

/-- `ocf_lst_add`, `/repo/src/utils/utils_list.h:131-143`. -/
def Lst.add (l : Lst) (idx : Nat) : Lst :=
  let n := l.next l.inv
  let l := (((l.get idx).get n).dbg idx true).dbg n false
  { l with
    next := upd (upd l.next idx n) l.inv idx
    prev := upd (upd l.prev n idx) idx l.inv }

/-- `ocf_lst_add_tail`, `/repo/src/utils/utils_list.h:145-157`. -/
def Lst.addTail (l : Lst) (idx : Nat) : Lst :=
  let p := l.prev l.inv
  let l := (((l.get idx).get p).dbg idx true).dbg p false
  { l with
    next := upd (upd l.next idx l.inv) p idx
    prev := upd (upd l.prev idx p) l.inv idx }

/-- `ocf_lst_del`, `/repo/src/utils/utils_list.h:159-173`. -/
def Lst.del (l : Lst) (idx : Nat) : Lst :=
  let n := l.next idx
  let p := l.prev idx
  let l := (((((l.get idx).get n).get p).dbg idx false).dbg n false).dbg p false
  { l with next := upd l.next p n, prev := upd l.prev n p }.initEntry idx

/-- `ocf_lst_empty`, `/repo/src/utils/utils_list.h:185-191`. -/
def Lst.empty (l : Lst) : Bool := decide (l.next l.inv = l.inv)

/-- `ocf_lst_head`, `/repo/src/utils/utils_list.h:175-178`. -/
def Lst.head (l : Lst) : Nat := l.next l.inv

/-- `ocf_lst_tail`, `/repo/src/utils/utils_list.h:180-183`. -/
def Lst.tail (l : Lst) : Nat := l.prev l.inv

/-- The indices visited by `for_each_lst` started at `i`, `/repo/src/utils/utils_list.h:195-198`,
cut off after `n` rounds (`none`: not finished by then). -/
def Lst.visit (l : Lst) : Nat → Nat → Option (List Nat)
  | 0, _ => none
  | n + 1, i => if i = l.inv then some [] else (l.visit n (l.next i)).map (i :: ·)

/-- `for_each_lst` over the whole list, `/repo/src/utils/utils_list.h:195-198`. -/
def Lst.toList (l : Lst) (n : Nat) : Option (List Nat) := l.visit n (l.next l.inv)

/-- The search of `ocf_lst_sort` for the place of `x`, `/repo/src/utils/utils_list.c:46-48`: the
first entry comparing greater, or `inv` after the last. `none`: still searching after `n` rounds. -/
def Lst.place (l : Lst) (cmp : Nat → Nat → Int) (x : Nat) : Nat → Nat → Option Nat
  | 0, _ => none
  | n + 1, pos =>
    if pos = l.inv then some l.inv
    else if cmp pos x > 0 then some pos
    else l.place cmp x n (l.next pos)

/-- One round of the loop of `ocf_lst_sort`, `/repo/src/utils/utils_list.c:35-58`. -/
def Lst.sortStep (l : Lst) (cmp : Nat → Nat → Int) (x : Nat) : Lst :=
  let l := l.initEntry x
  if l.empty then l.add x
  else
    match l.place cmp x (l.inv + 1) (l.next l.inv) with
    | none => { l with hang := true }
    | some pos => if pos = l.inv then l.addTail x else l.addBefore pos x

/-- The loop of `ocf_lst_sort`, `/repo/src/utils/utils_list.c:35-63`, with `iter_idx` and `next_idx`;
the first argument limits the number of rounds. -/
def Lst.sortLoop (l : Lst) (cmp : Nat → Nat → Int) : Nat → Nat → Nat → Lst
  | 0, _, _ => { l with hang := true }
  | n + 1, it, nxt =>
    if it = l.inv then l
    else
      let l := l.sortStep cmp it
      let l := l.get nxt
      l.sortLoop cmp n nxt (l.next nxt)

/-- `ocf_lst_sort`, `/repo/src/utils/utils_list.c:9-64`, with a comparator. -/
def Lst.sort (l : Lst) (cmp : Nat → Nat → Int) : Lst :=
  if l.empty then l
  else
    let it := l.next l.inv
    let nxt := l.next it
    let l := (l.get it).get nxt
    let l := { l with next := upd l.next l.inv l.inv, prev := upd l.prev l.inv l.inv }
    l.sortLoop cmp (l.inv + 1) it nxt

end Verif.IdxList
