/-! The reallocator (C62): memory that grows on demand, `utils_realloc.c`.

Memory is a map from addresses to blocks. Two allocators give blocks; a block goes back to the one it came from. -/

namespace Verif.Realloc

/-- A block: whether `env_vzalloc` gave it, and its bytes.
Source: /repo/src/utils/utils_realloc.c:26-29. -/
structure Blk where
  vm : Bool
  data : List Nat
  deriving DecidableEq, Repr

/-- The pointer, the limit and all memory. Ghosts: `bad`, memory was freed by the wrong function, freed when not
allocated, or touched out of its bounds; `bug`, an assertion failed.
Source: /repo/src/utils/utils_realloc.c:11-17. -/
structure St where
  mem : Option Nat
  limit : Nat
  heap : Nat → Option Blk
  bad : Bool := false
  bug : Bool := false

/-- `OCF_REALLOC_K_MAX`.
Source: /repo/src/utils/utils_realloc.c:9-9. -/
def kMax : Nat := 131072

/-- `size_t` arithmetic, 64 bits.
Source: /repo/src/utils/utils_realloc.c:14-14. -/
def W : Nat := 18446744073709551616

/-- `ocf_realloc_init`.
Source: /repo/src/utils/utils_realloc.c:110-117. -/
def init (s : St) : St := { s with mem := none, limit := 0 }

/-- Memory with one address changed.
Source: /repo/src/utils/utils_realloc.c:26-29. -/
def set (h : Nat → Option Blk) (p : Nat) (b : Option Blk) : Nat → Option Blk := fun x => if x = p then b else h x

/-- `env_vfree` or `env_free`, by the limit.
Source: /repo/src/utils/utils_realloc.c:46-49, /repo/src/utils/utils_realloc.c:76-79. -/
def free (s : St) (p : Nat) : St :=
  match s.heap p with
  | none => { s with bad := true }
  | some b => { s with heap := set s.heap p none, bad := s.bad || b.vm != decide (kMax < s.limit) }

/-- `env_memcpy(new_mem, alloc_size, *mem, *limit)`: asserts that it fits.
Source: /repo/src/utils/utils_realloc.c:38-44. -/
def copy (s : St) (p q n : Nat) : St :=
  match s.heap p, s.heap q with
  | some b, some c =>
    { s with heap := set s.heap q (some { c with data := b.data.take s.limit ++ c.data.drop s.limit })
             bad := s.bad || decide (b.data.length < s.limit), bug := s.bug || decide (n < s.limit) }
  | _, _ => { s with bad := true }

/-- A larger block is allocated at `q`, the previous one copied and freed.
Source: /repo/src/utils/utils_realloc.c:22-58. -/
def grow (s : St) (n q : Nat) (cp : Bool) : St :=
  let s := { s with heap := set s.heap q (some ⟨decide (kMax < n), List.replicate n 0⟩) }
  let s := match s.mem with
    | none => s
    | some p => free (if cp then copy s p q n else s) p
  { s with limit := n, mem := some q }

/-- `env_memset(*mem + alloc_size, *limit - alloc_size, 0)`.
Source: /repo/src/utils/utils_realloc.c:61-66. -/
def zero (s : St) (n : Nat) : St :=
  match s.mem with
  | none => { s with bad := s.bad || decide (n < s.limit) }
  | some p => match s.heap p with
    | none => { s with bad := true }
    | some b =>
      { s with heap := set s.heap p
                  (some { b with data := b.data.take n ++ List.replicate (s.limit - n) 0 ++ b.data.drop s.limit })
               bad := s.bad || decide (b.data.length < s.limit) }

/-- `_ocf_realloc_with_cp`; `q` the address the allocator gives, if it does. Returns whether it succeeded.
Source: /repo/src/utils/utils_realloc.c:11-98. -/
def realloc (s : St) (size count : Nat) (q : Option Nat) (cp : Bool) : St × Bool :=
  let n := size * count % W
  if size ≠ 0 ∧ count ≠ 0 then
    if s.limit < n then
      match q with
      | none => (s, false)
      | some q => (grow s n q cp, true)
    else ((if cp then zero s n else s), true)
  else if size = 0 ∧ count = 0 then
    match s.mem with
    | some p =>
      if s.limit ≠ 0 then ({ free s p with limit := 0, mem := none }, true) else ({ s with bug := true }, false)
    | none => if s.limit = 0 then (s, true) else ({ s with bug := true }, false)
  else ({ s with bug := true }, false)

/-- What users do: reallocate, write a byte they have, other users allocate and free blocks of their own.
Source: /repo/src/utils/utils_realloc.c:100-108, /repo/src/cleaning/alru.c:875-942. -/
inductive Op
  | realloc (size count : Nat) (q : Option Nat) (cp : Bool)
  | write (i v : Nat)
  | other (p : Nat) (b : Option Blk)

/-- When: sizes are both zero or both not, the allocator gives a free address, others keep to their blocks.
Source: /repo/src/utils/utils_realloc.c:100-108. -/
def Can (s : St) : Op → Prop
  | .realloc size count q _ => (size = 0 ↔ count = 0) ∧ ∀ a, q = some a → s.heap a = none
  | .write i _ => i < s.limit
  | .other p _ => s.mem ≠ some p

/-- A byte is written.
Source: /repo/src/cleaning/alru.c:875-942. -/
def write (s : St) (i v : Nat) : St :=
  match s.mem with
  | none => { s with bad := true }
  | some p => match s.heap p with
    | none => { s with bad := true }
    | some b => { s with heap := set s.heap p (some { b with data := b.data.set i v })
                         bad := s.bad || decide (b.data.length ≤ i) }

/-- One step.
Source: /repo/src/utils/utils_realloc.c:100-108. -/
def step (s : St) : Op → St
  | .realloc size count q cp => (realloc s size count q cp).1
  | .write i v => write s i v
  | .other p b => { s with heap := set s.heap p b }

/-- Single steps.
Source: /repo/src/utils/utils_realloc.c:100-108. -/
def Step (s t : St) : Prop := ∃ o, Can s o ∧ t = step s o

/-- After `ocf_realloc_init`, whatever was there.
Source: /repo/src/utils/utils_realloc.c:110-117. -/
def Init (s : St) : Prop := ∃ s0 : St, s0.bad = false ∧ s0.bug = false ∧ s = init s0

end Verif.Realloc
