/-!
Model of the composite volume. Source: `/repo/src/ocf_composite_volume.c`.
-/

namespace Verif.Composite

/-- A member volume: its length in bytes and whether it is open
(`composite->member[i].volume`, `/repo/src/ocf_composite_volume.c:19-28`). -/
structure Member where
  len : Nat
  opened : Bool
deriving Repr, DecidableEq

/-- The loop of `ocf_composite_volume_open`, `/repo/src/ocf_composite_volume.c:274-285`, which
fills `end_addr[]`; `length` is the running total. Opening errors are not modelled (open then
fails as a whole). Simplification: 64-bit sums do not wrap. -/
def endAddrs (length : Nat) : List Member → List Nat
  | [] => []
  | m :: ms => (length + m.len) :: endAddrs (length + m.len) ms

/-- `struct ocf_composite_volume` after open, `/repo/src/ocf_composite_volume.c:19-28`. -/
structure Vol where
  members : List Member
  endAddr : List Nat
  length : Nat

/-- `ocf_composite_volume_open`, `/repo/src/ocf_composite_volume.c:267-294`. -/
def openVol (ms : List Member) : Vol :=
  { members := ms, endAddr := endAddrs 0 ms, length := ((endAddrs 0 ms).getLast?).getD 0 }

/-- `composite->end_addr[i]`, `/repo/src/ocf_composite_volume.c:25`. -/
def Vol.endAt (v : Vol) (i : Nat) : Nat := v.endAddr.getD i 0

/-- `composite->member[i].volume.opened`, `/repo/src/ocf_composite_volume.c:47,58`. -/
def Vol.openAt (v : Vol) (i : Nat) : Bool := (v.members[i]?.map (·.opened)).getD false

/-- `composite->members_cnt`, `/repo/src/ocf_composite_volume.c:20`. -/
def Vol.cnt (v : Vol) : Nat := v.members.length

/-- One forwarded member I/O: arguments of `ocf_forward_io`,
`/repo/src/ocf_composite_volume.c:64-65`. -/
structure Part where
  member : Nat
  addr : Nat
  bytes : Nat
  offset : Nat
deriving Repr, DecidableEq

/-- Outcome: forwarded parts in order, and the error code class passed to the final
`ocf_forward_end` of the composite itself, `/repo/src/ocf_composite_volume.c:48,59,74` (`true` = 0, `false` = negative). -/
structure Out where
  parts : List Part
  ok : Bool
deriving Repr, DecidableEq

/-- First loop of `ocf_composite_forward_io` (and of discard, write_zeros, metadata, io_simple):
index of the first member whose end lies above `addr`,
`/repo/src/ocf_composite_volume.c:43-54`. -/
def Vol.seek (v : Vol) (addr i : Nat) : Nat :=
  if i < v.cnt then
    if addr ≥ v.endAt i then v.seek addr (i + 1) else i
  else i
termination_by v.cnt - i

/-- Second loop, `/repo/src/ocf_composite_volume.c:56-71`.
(`end_addr[i] - caddr` is a 64-bit subtraction; `caddr ≤ end_addr[i]` is proved, so truncated
subtraction is the same.) -/
def Vol.forwardLoop (v : Vol) (i addr caddr bytes offset : Nat) : Out :=
  if i < v.cnt ∧ bytes ≠ 0 then
    if !v.openAt i then { parts := [], ok := false }
    else
      let memberBytes := min bytes (v.endAt i - caddr)
      let r := v.forwardLoop (i + 1) 0 (v.endAt i) (bytes - memberBytes) (offset + memberBytes)
      { r with parts := ⟨i, addr, memberBytes, offset⟩ :: r.parts }
  else { parts := [], ok := true }
termination_by v.cnt - i

/-- `ocf_composite_forward_io`, `/repo/src/ocf_composite_volume.c:30-75`; the loops of
`_forward_metadata` (`:180-225`) are the same, those of `_forward_discard` (`:90-133`) and
`_forward_write_zeros` (`:135-178`) are the same without the buffer offset.
`none` is `ENV_BUG_ON` (`:38-39`). -/
def Vol.forwardIo (v : Vol) (addr bytes offset : Nat) : Option Out :=
  if addr ≥ v.length then none
  else if addr + bytes > v.length then none
  else
    let i := v.seek addr 0
    if i < v.cnt ∧ !v.openAt i then some { parts := [], ok := false }
    else
      let addr' := if i < v.cnt then addr - (if i > 0 then v.endAt (i - 1) else 0) else addr
      some (v.forwardLoop i addr' addr bytes offset)

/-- `ocf_composite_forward_io_simple`, `/repo/src/ocf_composite_volume.c:227-263`. -/
def Vol.forwardIoSimple (v : Vol) (addr bytes : Nat) : Option Out :=
  if addr ≥ v.length then none
  else if addr + bytes > v.length then none
  else
    let i := v.seek addr 0
    if i < v.cnt ∧ !v.openAt i then some { parts := [], ok := false }
    else
      let addr' := if i < v.cnt then addr - (if i > 0 then v.endAt (i - 1) else 0) else addr
      if addr + bytes > v.endAt i then some { parts := [], ok := false }
      else some { parts := [⟨i, addr', bytes, 0⟩], ok := true }

/-- `ocf_composite_forward_flush`, `/repo/src/ocf_composite_volume.c:77-88`: one flush per
member. -/
def Vol.forwardFlush (v : Vol) : List Nat := List.range v.cnt

end Verif.Composite
