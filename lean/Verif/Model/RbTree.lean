/-!
# The ordered tree used to find sequential streams

Model of `/repo/src/utils/utils_rbtree.c` at the level of pointers.  Nodes are numbers, the
fields of a node are maps from nodes to values, `none` is the null pointer.  A function that
would dereference a null pointer returns `none`.  Loops take a bound for the number of rounds and
return `none` when it is exceeded; the theorems say that this does not happen when the bound is
large enough, i.e. that the loops end.

Simplifications:
* `tree->cmp` compares natural numbers, the keys of the nodes (`key`), by the usual order;
* nodes with equal keys are kept in a ring (`struct list_head`) one of whose nodes is in the tree.
  The ring is modelled as the list of the other nodes (`dups`) of the node in the tree, and each
  of these others knows the node in the tree (`head`).
-/

namespace Verif.RbTree

/-- `struct ocf_rb_tree` and all `struct ocf_rb_node`, `/repo/src/utils/utils_rbtree.h:11-29`. -/
structure Heap where
  root : Option Nat
  left : Nat → Option Nat
  right : Nat → Option Nat
  parent : Nat → Option Nat
  red : Nat → Bool
  key : Nat → Nat
  dups : Nat → List Nat
  head : Nat → Option Nat

/-- Change one field of one node; an assignment such as
`/repo/src/utils/utils_rbtree.c:41`. -/
def upd {α : Type} (f : Nat → α) (i : Nat) (v : α) (k : Nat) : α := if k = i then v else f k

/-- `node->left = p`, `/repo/src/utils/utils_rbtree.c:50`. -/
def setLeft (h : Heap) (x : Nat) (p : Option Nat) : Heap := { h with left := upd h.left x p }

/-- `node->right = p`, `/repo/src/utils/utils_rbtree.c:41`. -/
def setRight (h : Heap) (x : Nat) (p : Option Nat) : Heap := { h with right := upd h.right x p }

/-- `node->parent = p`, `/repo/src/utils/utils_rbtree.c:46`. -/
def setParent (h : Heap) (x : Nat) (p : Option Nat) : Heap := { h with parent := upd h.parent x p }

/-- `node->red = c`, `/repo/src/utils/utils_rbtree.c:91`. -/
def setRed (h : Heap) (x : Nat) (c : Bool) : Heap := { h with red := upd h.red x c }

/-- `if (p) p->parent = x`, `/repo/src/utils/utils_rbtree.c:43-44`. -/
def setParentOpt (h : Heap) (p : Option Nat) (x : Nat) : Heap :=
  match p with
  | some z => setParent h z (some x)
  | none => h

/-- `ocf_rb_tree_update_parent`, `/repo/src/utils/utils_rbtree.c:20-34`. -/
def updateParent (h : Heap) (parent : Option Nat) (old : Nat) (new : Option Nat) : Heap :=
  match parent with
  | none => if h.root = some old then { h with root := new } else h
  | some p =>
    if h.left p = some old then setLeft h p new
    else if h.right p = some old then setRight h p new
    else h

/-- `ocf_rb_tree_rotate_left`, `/repo/src/utils/utils_rbtree.c:36-52`. -/
def rotateLeft (h : Heap) (x : Nat) : Option Heap :=
  match h.right x with
  | none => none
  | some y =>
    let h := setRight h x (h.left y)
    let h := setParentOpt h (h.right x) x
    let h := setParent h y (h.parent x)
    let h := updateParent h (h.parent x) x (some y)
    let h := setLeft h y (some x)
    some (setParent h x (some y))

/-- `ocf_rb_tree_rotate_right`, `/repo/src/utils/utils_rbtree.c:54-70`. -/
def rotateRight (h : Heap) (x : Nat) : Option Heap :=
  match h.left x with
  | none => none
  | some y =>
    let h := setLeft h x (h.right y)
    let h := setParentOpt h (h.left x) x
    let h := setParent h y (h.parent x)
    let h := updateParent h (h.parent x) x (some y)
    let h := setRight h y (some x)
    some (setParent h x (some y))

/-- `p && p->red`, as in `/repo/src/utils/utils_rbtree.c:89`. -/
def isRed (h : Heap) (p : Option Nat) : Bool :=
  match p with
  | some x => h.red x
  | none => false

/-- `tree->root->red = false`, `/repo/src/utils/utils_rbtree.c:135`. -/
def blackRoot (h : Heap) : Option Heap :=
  match h.root with
  | none => none
  | some r => some (setRed h r false)

/-- One round of the loop of `ocf_rb_tree_fix_violation` for a red node with a red parent and a
grandparent, `/repo/src/utils/utils_rbtree.c:85-131`; the node for the next round is returned. -/
def fixRound (h : Heap) (node parent grandparent : Nat) : Option (Heap × Nat) :=
  if h.left grandparent = some parent then
    let uncle := h.right grandparent
    if isRed h uncle then
      match uncle with
      | none => none
      | some u =>
        some (setRed (setRed (setRed h grandparent true) parent false) u false, grandparent)
    else if h.right parent = some node then
      (rotateLeft h parent).map fun h => (h, parent)
    else
      (rotateRight h grandparent).map fun h =>
        let tmp := h.red parent
        let h := setRed h parent (h.red grandparent)
        (setRed h grandparent tmp, parent)
  else
    let uncle := h.left grandparent
    if isRed h uncle then
      match uncle with
      | none => none
      | some u =>
        some (setRed (setRed (setRed h grandparent true) parent false) u false, grandparent)
    else if h.left parent = some node then
      (rotateRight h parent).map fun h => (h, parent)
    else
      (rotateLeft h grandparent).map fun h =>
        let tmp := h.red parent
        let h := setRed h parent (h.red grandparent)
        (setRed h grandparent tmp, parent)

/-- `ocf_rb_tree_fix_violation`, `/repo/src/utils/utils_rbtree.c:72-136`. -/
def fixViolation : Nat → Heap → Nat → Option Heap
  | 0, _, _ => none
  | fuel + 1, h, node =>
    if h.red node then
      match h.parent node with
      | none => blackRoot h
      | some parent =>
        if h.red parent then
          match h.parent parent with
          | none => blackRoot h
          | some grandparent =>
            match fixRound h node parent grandparent with
            | none => none
            | some (h, node) => fixViolation fuel h node
        else blackRoot h
    else blackRoot h

/-- The search for the place of a new node: the last node looked at and the result of the
comparison with it, `/repo/src/utils/utils_rbtree.c:156-162`. -/
def descend : Nat → Heap → Nat → Nat → Option (Nat × Ordering)
  | 0, _, _, _ => none
  | fuel + 1, h, k, iter =>
    match compare k (h.key iter) with
    | .eq => some (iter, .eq)
    | .lt =>
      match h.left iter with
      | none => some (iter, .lt)
      | some i => descend fuel h k i
    | .gt =>
      match h.right iter with
      | none => some (iter, .gt)
      | some i => descend fuel h k i

/-- `ocf_rb_tree_insert`, `/repo/src/utils/utils_rbtree.c:138-177`. -/
def insert (fuel : Nat) (h : Heap) (node : Nat) : Option Heap :=
  let h := { h with dups := upd h.dups node [], head := upd h.head node none }
  let h := setLeft h node none
  let h := setRight h node none
  let h := setParent h node none
  match h.root with
  | none => some { setRed h node false with root := some node }
  | some r =>
    match descend fuel h (h.key node) r with
    | none => none
    | some (iter, .eq) =>
      some { h with dups := upd h.dups iter (h.dups iter ++ [node]), head := upd h.head node (some iter) }
    | some (iter, .lt) =>
      let h := setRed h node true
      let h := setParent h node (some iter)
      fixViolation fuel (setLeft h iter (some node)) node
    | some (iter, .gt) =>
      let h := setRed h node true
      let h := setParent h node (some iter)
      fixViolation fuel (setRight h iter (some node)) node

/-- `if (node->parent == node) ...`: repair the link of `x` to itself which the exchange of the
fields of neighbours leaves, `/repo/src/utils/utils_rbtree.c:209-214`. -/
def unself (h : Heap) (x y : Nat) : Heap :=
  if h.parent x = some x then setParent h x (some y)
  else if h.left x = some x then setLeft h x (some y)
  else if h.right x = some x then setRight h x (some y)
  else h

/-- `ocf_rb_tree_update_children`, `/repo/src/utils/utils_rbtree.c:187-194`. -/
def updateChildren (h : Heap) (x : Nat) : Heap :=
  let h := setParentOpt h (h.left x) x
  setParentOpt h (h.right x) x

/-- `ocf_rb_copy_node` three times, `/repo/src/utils/utils_rbtree.c:205-207` and
`/repo/src/utils/utils_rbtree.c:179-185`. -/
def exchange (h : Heap) (x y : Nat) : Heap :=
  { h with
    red := upd (upd h.red x (h.red y)) y (h.red x)
    left := upd (upd h.left x (h.left y)) y (h.left x)
    right := upd (upd h.right x (h.right y)) y (h.right x)
    parent := upd (upd h.parent x (h.parent y)) y (h.parent x) }

/-- `ocf_rb_tree_swap`, `/repo/src/utils/utils_rbtree.c:200-228`. -/
def swap (h : Heap) (x y : Nat) : Heap :=
  let h := exchange h x y
  let h := unself h x y
  let h := unself h y x
  let h := updateChildren h x
  let h := updateChildren h y
  let h := updateParent h (h.parent x) y (some x)
  updateParent h (h.parent y) x (some y)

/-- The loop of `ocf_rb_tree_successor`, `/repo/src/utils/utils_rbtree.c:237-238`. -/
def leftmost : Nat → Heap → Nat → Option Nat
  | 0, _, _ => none
  | fuel + 1, h, x =>
    match h.left x with
    | none => some x
    | some y => leftmost fuel h y

/-- The loop of `ocf_rb_tree_predecessor`, `/repo/src/utils/utils_rbtree.c:250-251`. -/
def rightmost : Nat → Heap → Nat → Option Nat
  | 0, _, _ => none
  | fuel + 1, h, x =>
    match h.right x with
    | none => some x
    | some y => rightmost fuel h y

/-- `ocf_rb_tree_bst_replacement` with `ocf_rb_tree_successor`,
`/repo/src/utils/utils_rbtree.c:256-268` and `/repo/src/utils/utils_rbtree.c:230-241`.  The outer
`none` means that the bound was exceeded. -/
def replacement (fuel : Nat) (h : Heap) (x : Nat) : Option (Option Nat) :=
  match h.left x, h.right x with
  | some _, some r => (leftmost fuel h r).map some
  | some l, none => some (some l)
  | none, some r => some (some r)
  | none, none => some none

/-- `ocf_rb_tree_sibling`, `/repo/src/utils/utils_rbtree.c:270-277`. -/
def sibling (h : Heap) (x : Nat) : Option Nat :=
  match h.parent x with
  | none => none
  | some p => if h.left p = some x then h.right p else h.left p

/-- Colour of the red child of the sibling and rotations, `/repo/src/utils/utils_rbtree.c:310-322`
(red left child).  `p` is `node->parent` at the start; after the rotations `node->parent` is read
again. -/
def fixLeftRed (h : Heap) (node p s sl : Nat) : Option Heap :=
  let h? :=
    if h.left p = some s then
      let h := setRed h sl (h.red s)
      let h := setRed h s (h.red p)
      rotateRight h p
    else
      let h := setRed h sl (h.red p)
      match rotateRight h s with
      | none => none
      | some h => (h.parent node).bind fun p => rotateLeft h p
  match h? with
  | none => none
  | some h => (h.parent node).map fun p => setRed h p false

/-- The same for a red right child, `/repo/src/utils/utils_rbtree.c:323-335`. -/
def fixRightRed (h : Heap) (node p s sr : Nat) : Option Heap :=
  let h? :=
    if h.left p = some s then
      let h := setRed h sr (h.red p)
      match rotateLeft h s with
      | none => none
      | some h => (h.parent node).bind fun p => rotateRight h p
    else
      let h := setRed h sr (h.red s)
      let h := setRed h s (h.red p)
      rotateLeft h p
  match h? with
  | none => none
  | some h => (h.parent node).map fun p => setRed h p false

/-- `ocf_rb_tree_fix_double_black`, `/repo/src/utils/utils_rbtree.c:280-349`. -/
def fixDoubleBlack : Nat → Heap → Nat → Option Heap
  | 0, _, _ => none
  | fuel + 1, h, node =>
    match h.parent node with
    | none => some h
    | some p =>
      match sibling h node with
      | none => fixDoubleBlack fuel h p
      | some s =>
        if h.red s then
          let h := setRed h p true
          let h := setRed h s false
          match (if h.left p = some s then rotateRight h p else rotateLeft h p) with
          | none => none
          | some h => fixDoubleBlack fuel h node
        else if isRed h (h.left s) then
          (h.left s).bind fun sl => fixLeftRed h node p s sl
        else if isRed h (h.right s) then
          (h.right s).bind fun sr => fixRightRed h node p s sr
        else
          let h := setRed h s true
          if h.red p then some (setRed h p false)
          else fixDoubleBlack fuel h p

/-- The loop of `ocf_rb_tree_remove` for a node in the tree without nodes of equal key,
`/repo/src/utils/utils_rbtree.c:370-404`. -/
def removeLoop : Nat → Heap → Nat → Option Heap
  | 0, _, _ => none
  | fuel + 1, h, node =>
    let sib := sibling h node
    match replacement fuel h node with
    | none => none
    | some none =>
      if h.root = some node then some { h with root := none }
      else
        let h? :=
          if !h.red node then fixDoubleBlack fuel h node
          else
            match sib with
            | some s => some (setRed h s true)
            | none => some h
        h?.map fun h => updateParent h (h.parent node) node none
    | some (some rep) =>
      if h.left rep = none ∧ h.right rep = none then
        let h := swap h node rep
        let h? := if !h.red node then fixDoubleBlack fuel h node else some h
        h?.map fun h => updateParent h (h.parent node) node none
      else removeLoop fuel (swap h node rep) node

/-- `list_empty(&node->list)`, `/repo/src/utils/utils_rbtree.c:355`: the ring of the node has no
other node. -/
def listEmpty (h : Heap) (x : Nat) : Bool := (h.dups x).isEmpty && (h.head x).isNone

/-- `list_del` of a node that is not in the tree, `/repo/src/utils/utils_rbtree.c:359`. -/
def listDel (h : Heap) (x : Nat) : Heap :=
  match h.head x with
  | some t => { h with dups := upd h.dups t ((h.dups t).filter (· ≠ x)), head := upd h.head x none }
  | none => h

/-- The node in the tree leaves its ring and the first of the others takes its place,
`/repo/src/utils/utils_rbtree.c:364-366`: the ring now belongs to `y`. -/
def passRing (h : Heap) (x y : Nat) (rest : List Nat) : Heap :=
  { h with
    dups := upd (upd h.dups x []) y rest
    head := fun z => if z ∈ rest then some y else if z = y then none else h.head z }

/-- `ocf_rb_tree_remove`, `/repo/src/utils/utils_rbtree.c:351-405`. -/
def remove (fuel : Nat) (h : Heap) (node : Nat) : Option Heap :=
  if !listEmpty h node then
    if h.parent node = none ∧ h.root ≠ some node then some (listDel h node)
    else
      match h.dups node with
      | [] => none
      | next :: rest => some (passRing (swap h node next) node next rest)
  else removeLoop fuel h node

/-- The loop of `ocf_rb_tree_find`, `/repo/src/utils/utils_rbtree.c:460-466`.  The outer `none`
means that the bound was exceeded. -/
def findLoop : Nat → Heap → Nat → Option Nat → Option (Option Nat)
  | 0, _, _, _ => none
  | _ + 1, _, _, none => some none
  | fuel + 1, h, k, some iter =>
    match compare k (h.key iter) with
    | .eq => some (some iter)
    | .lt => findLoop fuel h k (h.left iter)
    | .gt => findLoop fuel h k (h.right iter)

/-- `ocf_rb_tree_find`, `/repo/src/utils/utils_rbtree.c:454-472`.  `pick` is `tree->find`, which
gets the node in the tree and the others of its ring (`ocf_rb_tree_list_find_first`,
`/repo/src/utils/utils_rbtree.c:448-452`, returns the former). -/
def find (fuel : Nat) (h : Heap) (pick : Nat → List Nat → Option Nat) (k : Nat) :
    Option (Option Nat) :=
  match findLoop fuel h k h.root with
  | none => none
  | some none => some none
  | some (some iter) =>
    if listEmpty h iter then some (some iter) else some (pick iter (h.dups iter))

/-- The loop of `ocf_rb_tree_can_update`, `/repo/src/utils/utils_rbtree.c:416-422`: whether the
search for the new key passes the node. -/
def passes : Nat → Heap → Nat → Nat → Option Nat → Option Bool
  | 0, _, _, _, _ => none
  | _ + 1, _, _, _, none => some false
  | fuel + 1, h, k, node, some iter =>
    if iter = node then some true
    else
      match compare k (h.key iter) with
      | .lt => passes fuel h k node (h.left iter)
      | _ => passes fuel h k node (h.right iter)

/-- `ocf_rb_tree_can_update`, `/repo/src/utils/utils_rbtree.c:407-446` (with
`ocf_rb_tree_predecessor`, `/repo/src/utils/utils_rbtree.c:243-254`). -/
def canUpdate (fuel : Nat) (h : Heap) (node : Nat) (k : Nat) : Option Bool :=
  if !listEmpty h node then some false
  else
    match passes fuel h k node h.root with
    | none => none
    | some false => some false
    | some true =>
      match compare k (h.key node) with
      | .lt =>
        match h.left node with
        | none => some true
        | some l => (rightmost fuel h l).map fun p => decide (k > h.key p)
      | .gt =>
        match h.right node with
        | none => some true
        | some r => (leftmost fuel h r).map fun s => decide (k < h.key s)
      | .eq => some true

/-- `ocf_rb_tree_init`, `/repo/src/utils/utils_rbtree.c:12-18`; the contents of the nodes do not
matter. -/
def init (h : Heap) : Heap := { h with root := none }

end Verif.RbTree
