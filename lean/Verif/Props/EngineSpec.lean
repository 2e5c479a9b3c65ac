/-!
# What the clients of the core volumes may observe

A monitor reading only the events of the client interface: invocation and
completion of reads, writes and discards, and crashes.  It does not look at the cache.

Per sector it keeps the set `ok` of values a read may return now.  Writes to a
sector that overlap in time form a burst; `fresh` holds the values of the writes
of the present burst.  When the first write of a burst completes, all older values
stop being permitted.  A write which fails may or may not have taken effect, so it
changes nothing.  A discard counts as a write of all values at once: what it leaves in
its sectors is not known until they are written again.  So after a write which overlapped no other write of the
sector, its value is the only one left.
-/

namespace Verif.EngineSpec

/-- Observable events: a read is called, a read returns, a write is called, a write
is acknowledged, a read or a write fails, a discard is called (`ackW` and `errW` end it as
well), the system crashes (and restarts), or nothing. -/
inductive Obs (D : Type)
  | nothing
  | callR (i : Nat) (has : Nat → Nat → Bool)
  | retR (i : Nat) (res : Nat → Nat → Option D)
  | callW (i : Nat) (has : Nat → Nat → Bool) (data : Nat → Nat → D)
  | ackW (i : Nat)
  | errR (i : Nat)
  | errW (i : Nat)
  | callD (i : Nat) (has : Nat → Nat → Bool)
  | crash

/-- The monitor.  `wr i` are the sectors of the write or discard `i` in flight, `rd i` the sectors of the read `i` in flight, `exp i`
the values that read may return. -/
structure Mon (D : Type) where
  wr : Nat → Nat → Nat → Bool
  rd : Nat → Nat → Nat → Bool
  ok : Nat → Nat → D → Prop
  fresh : Nat → Nat → D → Prop
  exp : Nat → Nat → Nat → D → Prop

/-- Some write or discard of the sector is in flight. -/
def Mon.busy {D : Type} (m : Mon D) (c t : Nat) : Prop := ∃ k, m.wr k c t = true

/-- How an event changes the monitor. -/
inductive Mon.Next {D : Type} (m : Mon D) : Obs D → Mon D → Prop
  | nothing : m.Next .nothing m
  | callR (i has) : m.Next (.callR i has)
      { m with
        rd := fun j => if j = i then has else m.rd j
        exp := fun j => if j = i then m.ok else m.exp j }
  | retR (i res) : m.Next (.retR i res)
      { m with rd := fun j => if j = i then fun _ _ => false else m.rd j }
  | callW (i has data) : m.Next (.callW i has data)
      { m with
        wr := fun j => if j = i then has else m.wr j
        fresh := fun c t v =>
          if has c t = true then v = data c t ∨ (m.busy c t ∧ m.fresh c t v)
          else m.fresh c t v
        ok := fun c t v => m.ok c t v ∨ (has c t = true ∧ v = data c t)
        exp := fun j c t v => m.exp j c t v ∨ (has c t = true ∧ v = data c t) }
  | ackW (i) : m.Next (.ackW i)
      { m with
        wr := fun j => if j = i then fun _ _ => false else m.wr j
        ok := fun c t v => if m.wr i c t = false then m.ok c t v else m.fresh c t v }
  | errR (i) : m.Next (.errR i)
      { m with rd := fun j => if j = i then fun _ _ => false else m.rd j }
  | errW (i) : m.Next (.errW i)
      { m with wr := fun j => if j = i then fun _ _ => false else m.wr j }
  | callD (i has) : m.Next (.callD i has)
      { m with
        wr := fun j => if j = i then has else m.wr j
        fresh := fun c t v => m.fresh c t v ∨ has c t = true
        ok := fun c t v => m.ok c t v ∨ has c t = true
        exp := fun j c t v => m.exp j c t v ∨ has c t = true }
  | crash : m.Next .crash
      { m with wr := fun _ _ _ => false, rd := fun _ _ _ => false }

/-- The values a read returns are permitted: every sector it asked for is returned,
with a value written by the last write that completed before the read was called
(or a write of the same burst), or by a write overlapping the read. -/
def Mon.Permits {D : Type} (m : Mon D) : Obs D → Prop
  | .retR i res => ∀ c t, m.rd i c t = true → ∃ v, res c t = some v ∧ m.exp i c t v
  | _ => True

end Verif.EngineSpec
