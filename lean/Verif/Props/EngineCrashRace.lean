import Verif.Lemma.EngineTrace
import Verif.Props.EngineCrash

/-!
# An acknowledged write lost by a power failure

A concrete execution.  Lines have two sectors; only core line 0 and the cache lines 0
and 1 are used, and everything is zero at first.

* Write 0 (write-invalidate, 2 into sector 0) finds the core line not mapped and puts
  its 2 into the core.
* Write 1 (write-back, 1 into sector 0) maps cache line 0, makes sector 0 dirty,
  flushes the metadata and is acknowledged.
* Write 0 purges cache line 0 in its second pass.  The line leaves the mapping; the
  flush of its metadata does not reach the cache device yet.
* Write 2 (write-back, 3 into sector 1) maps cache line 1, makes sector 1 dirty,
  flushes the metadata and is acknowledged.
* The power fails.  The cache device records both lines as dirty lines of core line 0,
  and the restart maps both (`ocf_mngt_cache.c:558-639`).
* Read 3 of sector 1 finds cache line 0, where sector 1 is not valid, and returns the
  0 of the core.
-/

namespace Verif.Engine.CrashRace
open Verif.EngineSpec Verif.Engine

@[simp] abbrev b0 := a0
@[simp] abbrev d0 := a0

@[simp] def b1 : St Nat := (b0.setReq 0 (Req.fresh ({ idle with on := fun c => c == 0, has := (fun c t => (c == 0 && t == 0)), data := fun _ _ => 2 }) (.wi) .look true))
theorem bt1 : Step 2 b0 .other (.invW 0 ({ idle with on := fun c => c == 0, has := (fun c t => (c == 0 && t == 0)), data := fun _ _ => 2 }).has ({ idle with on := fun c => c == 0, has := (fun c t => (c == 0 && t == 0)), data := fun _ _ => 2 }).data) b1 :=
  Step.invW b0 0 ({ idle with on := fun c => c == 0, has := (fun c t => (c == 0 && t == 0)), data := fun _ _ => 2 }) (.wi) (by gd) (by gd) (by gd) (by gd) (by gd)
@[simp] def b2 : St Nat := (b1.setReq 0 { b1.req 0 with ent := upd (b1.req 0).ent 0 .none })
theorem bt2 : Step 2 b1 (.miss 0 0) .tau b2 :=
  Step.miss b1 0 0 (by gd) (by gd) (by gd) (by gd) (by gd)
@[simp] def b3 : St Nat := { b2 with
          valid := (b2.valid)
          req := upd b2.req 0
            { b2.req 0 with
              pc := .xfer
              toCache := fun c t => (b2.req 0).has c t &&
                ((b2.req 0).eng == .wt || (b2.req 0).eng == .wb)
              toCore := fun c t => (b2.req 0).has c t &&
                ((b2.req 0).eng == .wt || (b2.req 0).eng == .wi) } }
theorem bt3 : Step 2 b2 .other .tau b3 :=
  Step.goWrite b2 0 false (b2.valid) (by gd) (by gd) (by gd) (by gd) (by gd)
@[simp] def b4 : St Nat := { b3 with
          core := upd2 b3.core 0 0 ((b3.req 0).data 0 0)
          req := upd b3.req 0
            { b3.req 0 with toCore := upd2 (b3.req 0).toCore 0 0 false } }
theorem bt4 : Step 2 b3 .other .tau b4 :=
  Step.wCore b3 0 0 0 (by gd) (by gd)
@[simp] def b5 : St Nat := (b4.setReq 1 (Req.fresh ({ idle with on := fun c => c == 0, has := (fun c t => (c == 0 && t == 0)), data := fun _ _ => 1 }) (.wb) .look true))
theorem bt5 : Step 2 b4 .other (.invW 1 ({ idle with on := fun c => c == 0, has := (fun c t => (c == 0 && t == 0)), data := fun _ _ => 1 }).has ({ idle with on := fun c => c == 0, has := (fun c t => (c == 0 && t == 0)), data := fun _ _ => 1 }).data) b5 :=
  Step.invW b4 1 ({ idle with on := fun c => c == 0, has := (fun c t => (c == 0 && t == 0)), data := fun _ _ => 1 }) (.wb) (by gd) (by gd) (by gd) (by gd) (by gd)
@[simp] def b6 : St Nat := { b5 with
          map := upd b5.map 0 (some 0)
          valid := fun k t => if k = 0 then false else b5.valid k t
          req := upd b5.req 1
            { b5.req 1 with
              ent := upd (b5.req 1).ent 0 (.line 0)
              held := upd (b5.req 1).held 0 true } }
theorem bt6 : Step 2 b5 (.remap 0 0) .tau b6 :=
  Step.remap b5 1 0 0 (by gd) (by gd) (by gd) (by gd) (by gd) (by gd) (by gd) (by gd)
@[simp] def b7 : St Nat := { b6 with
          valid := (b6.valid)
          req := upd b6.req 1
            { b6.req 1 with
              pc := .xfer
              toCache := fun c t => (b6.req 1).has c t &&
                ((b6.req 1).eng == .wt || (b6.req 1).eng == .wb)
              toCore := fun c t => (b6.req 1).has c t &&
                ((b6.req 1).eng == .wt || (b6.req 1).eng == .wi) } }
theorem bt7 : Step 2 b6 .other .tau b7 :=
  Step.goWrite b6 1 false (b6.valid) (by gd) (by gd) (by gd) (by gd) (by gd)
@[simp] def b8 : St Nat := { b7 with
          cache := upd2 b7.cache 0 0 ((b7.req 1).data 0 0)
          req := upd b7.req 1
            { b7.req 1 with toCache := upd2 (b7.req 1).toCache 0 0 false } }
theorem bt8 : Step 2 b7 .other .tau b8 :=
  Step.wCache b7 1 0 0 0 (by gd) (by gd) (by gd)
@[simp] def b9 : St Nat := { b8 with
          valid := fun k t => if k = 0 ∧ (b8.req 1).has 0 t = true then
            ((b8.req 1).eng == .wt || (b8.req 1).eng == .wb) else b8.valid k t
          dirty := fun k t => if k = 0 ∧ (b8.req 1).has 0 t = true then
            ((b8.req 1).eng == .wb) else b8.dirty k t
          req := upd b8.req 1
            { b8.req 1 with
              updd := upd (b8.req 1).updd 0 true
              need := upd (b8.req 1).need 0 true } }
theorem bt9 : Step 2 b8 .other .tau b9 :=
  Step.update b8 1 0 0 true (by gd) (by gd) (by gd) (by gd) (by gd) (by gd)
@[simp] def b10 : St Nat := { b9 with
          dmap := upd b9.dmap 0 (b9.map 0)
          ddirty := upd b9.ddirty 0 (b9.dirty 0)
          req := upd b9.req 1 { b9.req 1 with need := upd (b9.req 1).need 0 false } }
theorem bt10 : Step 2 b9 .other .tau b10 :=
  Step.flush b9 1 0 0 (by gd) (by gd)
@[simp] def b11 : St Nat := (b10.setReq 1 (b10.req 1).done)
theorem bt11 : Step 2 b10 .other (.ackW 1) b11 :=
  Step.ack b10 1 (by gd) (by gd) (by gd) (by gd) (by gd) (by gd)
@[simp] def b12 : St Nat := (b11.setReq 0 ((b11.req 0).fresh .wi2 .look true))
theorem bt12 : Step 2 b11 .other .tau b12 :=
  Step.pass2 b11 0 (by gd) (by gd) (by gd) (by gd)
@[simp] def b13 : St Nat := (b12.setReq 0 { b12.req 0 with ent := upd (b12.req 0).ent 0 (.line 0) })
theorem bt13 : Step 2 b12 .other .tau b13 :=
  Step.look b12 0 0 0 (by gd) (by gd) (by gd) (by gd)
@[simp] def b14 : St Nat := (b13.setReq 0 { b13.req 0 with held := upd (b13.req 0).held 0 true })
theorem bt14 : Step 2 b13 .other .tau b14 :=
  Step.grab b13 0 0 0 (by gd) (by gd) (by gd) (by gd)
@[simp] def b15 : St Nat := { b14 with
          valid := (b14.valid)
          req := upd b14.req 0
            { b14.req 0 with
              pc := .xfer
              toCache := fun c t => (b14.req 0).has c t &&
                ((b14.req 0).eng == .wt || (b14.req 0).eng == .wb)
              toCore := fun c t => (b14.req 0).has c t &&
                ((b14.req 0).eng == .wt || (b14.req 0).eng == .wi) } }
theorem bt15 : Step 2 b14 .other .tau b15 :=
  Step.goWrite b14 0 false (b14.valid) (by gd) (by gd) (by gd) (by gd) (by gd)
@[simp] def b16 : St Nat := { b15 with
          valid := fun k t => if k = 0 ∧ (b15.req 0).has 0 t = true then
            ((b15.req 0).eng == .wt || (b15.req 0).eng == .wb) else b15.valid k t
          dirty := fun k t => if k = 0 ∧ (b15.req 0).has 0 t = true then
            ((b15.req 0).eng == .wb) else b15.dirty k t
          req := upd b15.req 0
            { b15.req 0 with
              updd := upd (b15.req 0).updd 0 true
              need := upd (b15.req 0).need 0 true } }
theorem bt16 : Step 2 b15 .other .tau b16 :=
  Step.update b15 0 0 0 true (by gd) (by gd) (by gd) (by gd) (by gd) (by gd)
@[simp] def b17 : St Nat := { b16 with
          map := upd b16.map 0 none
          req := upd b16.req 0 { b16.req 0 with gone := upd (b16.req 0).gone 0 true } }
theorem bt17 : Step 2 b16 .other .tau b17 :=
  Step.unmap b16 0 0 0 (by gd) (by gd) (by gd) (by gd) (by gd) (by gd) (by gd)
@[simp] def b18 : St Nat := (b17.setReq 2 (Req.fresh ({ idle with on := fun c => c == 0, has := (fun c t => (c == 0 && t == 1)), data := fun _ _ => 3 }) (.wb) .look true))
theorem bt18 : Step 2 b17 .other (.invW 2 ({ idle with on := fun c => c == 0, has := (fun c t => (c == 0 && t == 1)), data := fun _ _ => 3 }).has ({ idle with on := fun c => c == 0, has := (fun c t => (c == 0 && t == 1)), data := fun _ _ => 3 }).data) b18 :=
  Step.invW b17 2 ({ idle with on := fun c => c == 0, has := (fun c t => (c == 0 && t == 1)), data := fun _ _ => 3 }) (.wb) (by gd) (by gd) (by gd) (by gd) (by gd)
@[simp] def b19 : St Nat := { b18 with
          map := upd b18.map 1 (some 0)
          valid := fun k t => if k = 1 then false else b18.valid k t
          req := upd b18.req 2
            { b18.req 2 with
              ent := upd (b18.req 2).ent 0 (.line 1)
              held := upd (b18.req 2).held 0 true } }
theorem bt19 : Step 2 b18 (.remap 0 1) .tau b19 :=
  Step.remap b18 2 0 1 (by gd) (by gd) (by gd) (by gd) (by gd) (by gd) (by gd) (by gd)
@[simp] def b20 : St Nat := { b19 with
          valid := (b19.valid)
          req := upd b19.req 2
            { b19.req 2 with
              pc := .xfer
              toCache := fun c t => (b19.req 2).has c t &&
                ((b19.req 2).eng == .wt || (b19.req 2).eng == .wb)
              toCore := fun c t => (b19.req 2).has c t &&
                ((b19.req 2).eng == .wt || (b19.req 2).eng == .wi) } }
theorem bt20 : Step 2 b19 .other .tau b20 :=
  Step.goWrite b19 2 false (b19.valid) (by gd) (by gd) (by gd) (by gd) (by gd)
@[simp] def b21 : St Nat := { b20 with
          cache := upd2 b20.cache 1 1 ((b20.req 2).data 0 1)
          req := upd b20.req 2
            { b20.req 2 with toCache := upd2 (b20.req 2).toCache 0 1 false } }
theorem bt21 : Step 2 b20 .other .tau b21 :=
  Step.wCache b20 2 0 1 1 (by gd) (by gd) (by gd)
@[simp] def b22 : St Nat := { b21 with
          valid := fun k t => if k = 1 ∧ (b21.req 2).has 0 t = true then
            ((b21.req 2).eng == .wt || (b21.req 2).eng == .wb) else b21.valid k t
          dirty := fun k t => if k = 1 ∧ (b21.req 2).has 0 t = true then
            ((b21.req 2).eng == .wb) else b21.dirty k t
          req := upd b21.req 2
            { b21.req 2 with
              updd := upd (b21.req 2).updd 0 true
              need := upd (b21.req 2).need 0 true } }
theorem bt22 : Step 2 b21 .other .tau b22 :=
  Step.update b21 2 0 1 true (by gd) (by gd) (by gd) (by gd) (by gd) (by gd)
@[simp] def b23 : St Nat := { b22 with
          dmap := upd b22.dmap 1 (b22.map 1)
          ddirty := upd b22.ddirty 1 (b22.dirty 1)
          req := upd b22.req 2 { b22.req 2 with need := upd (b22.req 2).need 0 false } }
theorem bt23 : Step 2 b22 .other .tau b23 :=
  Step.flush b22 2 0 1 (by gd) (by gd)
@[simp] def b24 : St Nat := (b23.setReq 2 (b23.req 2).done)
theorem bt24 : Step 2 b23 .other (.ackW 2) b24 :=
  Step.ack b23 2 (by gd) (by gd) (by gd) (by gd) (by gd) (by gd)
@[simp] def b25 : St Nat := { b24 with
          map := ((fun l => if l = 0 ∨ l = 1 then some 0 else none)), valid := b24.ddirty, dirty := b24.ddirty
          req := fun i => (b24.req i).done }
theorem bt25 : Step 2 b24 .other .crash b25 :=
  Step.crash b24 ((fun l => if l = 0 ∨ l = 1 then some 0 else none)) (by gd) (by gd)
@[simp] def b26 : St Nat := (b25.setReq 3 (Req.fresh ({ idle with on := fun c => c == 0, has := (fun c t => (c == 0 && t == 1)), data := fun _ _ => 0 }) (.wo) .look false))
theorem bt26 : Step 2 b25 .other (.invR 3 ({ idle with on := fun c => c == 0, has := (fun c t => (c == 0 && t == 1)), data := fun _ _ => 0 }).has) b26 :=
  Step.invR b25 3 ({ idle with on := fun c => c == 0, has := (fun c t => (c == 0 && t == 1)), data := fun _ _ => 0 }) (.wo) false (by gd) (by gd) (by gd) (by gd) (by gd)
@[simp] def b27 : St Nat := (b26.setReq 3 { b26.req 3 with ent := upd (b26.req 3).ent 0 (.line 0) })
theorem bt27 : Step 2 b26 .other .tau b27 :=
  Step.look b26 3 0 0 (by gd) (by gd) (by gd) (by gd)
@[simp] def b28 : St Nat := (b27.setReq 3 { b27.req 3 with held := upd (b27.req 3).held 0 true })
theorem bt28 : Step 2 b27 .other .tau b28 :=
  Step.grab b27 3 0 0 (by gd) (by gd) (by gd) (by gd)
@[simp] def b29 : St Nat := (b28.setReq 3 { b28.req 3 with pc := .oread, dany := true })
theorem bt29 : Step 2 b28 .other .tau b29 :=
  Step.goCoreWo b28 3 true (by gd) (by gd) (by gd) (by gd)
@[simp] def b30 : St Nat := (b29.setReq 3 { b29.req 3 with res := upd2 (b29.req 3).res 0 1 (some (b29.core 0 1)) })
theorem bt30 : Step 2 b29 .other .tau b30 :=
  Step.rdCore b29 3 0 1 (by gd) (by gd)
@[simp] def b31 : St Nat := (b30.setReq 3 { b30.req 3 with pc := .over, toCache := ((fun _ _ => false)) })
theorem bt31 : Step 2 b30 .other .tau b31 :=
  Step.goOver b30 3 ((fun _ _ => false)) (by gd) (by gd) (by gd) (by gd) (by gd)
@[simp] def b32 : St Nat := (b31.setReq 3 (b31.req 3).done)
theorem bt32 : Step 2 b31 .other (.retR 3 (b31.req 3).res) b32 :=
  Step.ret b31 3 (by gd) (by gd)

theorem run31 : ∃ m, Run 2 (fun s a _ => NoStaleWriteback s a ∧ NoDirtyDrop s a ∧ NoFlushError s a) b31 m ∧
    ¬ m.Permits (obs (.retR 3 (b31.req 3).res)) := by

  have r1 := (Run.init init0 : Run 2 (fun s a (_ : Ev Nat) => NoStaleWriteback s a ∧ NoDirtyDrop s a ∧ NoFlushError s a) b0 m0).step bt1
    ⟨(by nofun), (by nofun), (by nofun)⟩ (.callW _ _ _)
  have r2 := r1.step bt2
    ⟨(by nofun), (by nofun), (by nofun)⟩ (.nothing)
  have r3 := r2.step bt3
    ⟨(by nofun), (by nofun), (by nofun)⟩ (.nothing)
  have r4 := r3.step bt4
    ⟨(by nofun), (by nofun), (by nofun)⟩ (.nothing)
  have r5 := r4.step bt5
    ⟨(by nofun), (by nofun), (by nofun)⟩ (.callW _ _ _)
  have r6 := r5.step bt6
    ⟨(by nofun), (by nofun), (by nofun)⟩ (.nothing)
  have r7 := r6.step bt7
    ⟨(by nofun), (by nofun), (by nofun)⟩ (.nothing)
  have r8 := r7.step bt8
    ⟨(by nofun), (by nofun), (by nofun)⟩ (.nothing)
  have r9 := r8.step bt9
    ⟨(by nofun), (by nofun), (by nofun)⟩ (.nothing)
  have r10 := r9.step bt10
    ⟨(by nofun), (by nofun), (by nofun)⟩ (.nothing)
  have r11 := r10.step bt11
    ⟨(by nofun), (by nofun), (by nofun)⟩ (.ackW _)
  have r12 := r11.step bt12
    ⟨(by nofun), (by nofun), (by nofun)⟩ (.nothing)
  have r13 := r12.step bt13
    ⟨(by nofun), (by nofun), (by nofun)⟩ (.nothing)
  have r14 := r13.step bt14
    ⟨(by nofun), (by nofun), (by nofun)⟩ (.nothing)
  have r15 := r14.step bt15
    ⟨(by nofun), (by nofun), (by nofun)⟩ (.nothing)
  have r16 := r15.step bt16
    ⟨(by nofun), (by nofun), (by nofun)⟩ (.nothing)
  have r17 := r16.step bt17
    ⟨(by nofun), (by nofun), (by nofun)⟩ (.nothing)
  have r18 := r17.step bt18
    ⟨(by nofun), (by nofun), (by nofun)⟩ (.callW _ _ _)
  have r19 := r18.step bt19
    ⟨(by nofun), (by nofun), (by nofun)⟩ (.nothing)
  have r20 := r19.step bt20
    ⟨(by nofun), (by nofun), (by nofun)⟩ (.nothing)
  have r21 := r20.step bt21
    ⟨(by nofun), (by nofun), (by nofun)⟩ (.nothing)
  have r22 := r21.step bt22
    ⟨(by nofun), (by nofun), (by nofun)⟩ (.nothing)
  have r23 := r22.step bt23
    ⟨(by nofun), (by nofun), (by nofun)⟩ (.nothing)
  have r24 := r23.step bt24
    ⟨(by nofun), (by nofun), (by nofun)⟩ (.ackW _)
  have r25 := r24.step bt25
    ⟨(by nofun), (by nofun), (by nofun)⟩ (.crash)
  have r26 := r25.step bt26
    ⟨(by nofun), (by nofun), (by nofun)⟩ (.callR _ _)
  have r27 := r26.step bt27
    ⟨(by nofun), (by nofun), (by nofun)⟩ (.nothing)
  have r28 := r27.step bt28
    ⟨(by nofun), (by nofun), (by nofun)⟩ (.nothing)
  have r29 := r28.step bt29
    ⟨(by nofun), (by nofun), (by nofun)⟩ (.nothing)
  have r30 := r29.step bt30
    ⟨(by nofun), (by nofun), (by nofun)⟩ (.nothing)
  have r31 := r30.step bt31
    ⟨(by nofun), (by nofun), (by nofun)⟩ (.nothing)
  refine ⟨_, r31, fun h => ?_⟩
  obtain ⟨v, h1, h2⟩ := h 0 1 (by simp)
  have h3 : (b31.req 3).res 0 1 = some 0 := rfl
  rw [h3] at h1
  cases h1
  simp [Mon.busy] at h2
  obtain ⟨k, hk⟩ := h2
  by_cases q0 : k = 0 <;> by_cases q1 : k = 1 <;> simp [q0, q1] at hk

/-- C02 fails when a core line may be mapped again while the metadata flush of its
purged dirty line is still on its way: an execution in which no cleaner runs at all,
the only write to a sector was acknowledged before the power failed, and a read after
the restart returns the value before that write. -/
theorem purge_loses_acknowledged_write :
    ∃ (s s' : St Nat) (m : Mon Nat) (e : Ev Nat), Run 2 (fun s a _ => NoStaleWriteback s a ∧ NoDirtyDrop s a ∧ NoFlushError s a) s m ∧
      Step 2 s .other e s' ∧ ¬ m.Permits (obs e) := by
  obtain ⟨m, h1, h2⟩ := run31
  exact ⟨_, _, _, _, h1, bt32, h2⟩

@[simp] def d1 : St Nat := (d0.setReq 1 (Req.fresh ({ idle with on := fun c => c == 0, has := (fun c t => (c == 0 && t == 1)), data := fun _ _ => 3 }) (.wb) .look true))
theorem dt1 : Step 2 d0 .other (.invW 1 ({ idle with on := fun c => c == 0, has := (fun c t => (c == 0 && t == 1)), data := fun _ _ => 3 }).has ({ idle with on := fun c => c == 0, has := (fun c t => (c == 0 && t == 1)), data := fun _ _ => 3 }).data) d1 :=
  Step.invW d0 1 ({ idle with on := fun c => c == 0, has := (fun c t => (c == 0 && t == 1)), data := fun _ _ => 3 }) (.wb) (by gd) (by gd) (by gd) (by gd) (by gd)
@[simp] def d2 : St Nat := { d1 with
          map := upd d1.map 0 (some 0)
          valid := fun k t => if k = 0 then false else d1.valid k t
          req := upd d1.req 1
            { d1.req 1 with
              ent := upd (d1.req 1).ent 0 (.line 0)
              held := upd (d1.req 1).held 0 true } }
theorem dt2 : Step 2 d1 (.remap 0 0) .tau d2 :=
  Step.remap d1 1 0 0 (by gd) (by gd) (by gd) (by gd) (by gd) (by gd) (by gd) (by gd)
@[simp] def d3 : St Nat := { d2 with
          valid := (d2.valid)
          req := upd d2.req 1
            { d2.req 1 with
              pc := .xfer
              toCache := fun c t => (d2.req 1).has c t &&
                ((d2.req 1).eng == .wt || (d2.req 1).eng == .wb)
              toCore := fun c t => (d2.req 1).has c t &&
                ((d2.req 1).eng == .wt || (d2.req 1).eng == .wi) } }
theorem dt3 : Step 2 d2 .other .tau d3 :=
  Step.goWrite d2 1 false (d2.valid) (by gd) (by gd) (by gd) (by gd) (by gd)
@[simp] def d4 : St Nat := { d3 with
          cache := upd2 d3.cache 0 1 ((d3.req 1).data 0 1)
          req := upd d3.req 1
            { d3.req 1 with toCache := upd2 (d3.req 1).toCache 0 1 false } }
theorem dt4 : Step 2 d3 .other .tau d4 :=
  Step.wCache d3 1 0 1 0 (by gd) (by gd) (by gd)
@[simp] def d5 : St Nat := { d4 with
          valid := fun k t => if k = 0 ∧ (d4.req 1).has 0 t = true then
            ((d4.req 1).eng == .wt || (d4.req 1).eng == .wb) else d4.valid k t
          dirty := fun k t => if k = 0 ∧ (d4.req 1).has 0 t = true then
            ((d4.req 1).eng == .wb) else d4.dirty k t
          req := upd d4.req 1
            { d4.req 1 with
              updd := upd (d4.req 1).updd 0 true
              need := upd (d4.req 1).need 0 true } }
theorem dt5 : Step 2 d4 .other .tau d5 :=
  Step.update d4 1 0 0 true (by gd) (by gd) (by gd) (by gd) (by gd) (by gd)
@[simp] def d6 : St Nat := { d5 with
          dmap := upd d5.dmap 0 (d5.map 0)
          ddirty := upd d5.ddirty 0 (d5.dirty 0)
          req := upd d5.req 1 { d5.req 1 with need := upd (d5.req 1).need 0 false } }
theorem dt6 : Step 2 d5 .other .tau d6 :=
  Step.flush d5 1 0 0 (by gd) (by gd)
@[simp] def d7 : St Nat := (d6.setReq 1 (d6.req 1).done)
theorem dt7 : Step 2 d6 .other (.ackW 1) d7 :=
  Step.ack d6 1 (by gd) (by gd) (by gd) (by gd) (by gd) (by gd)
@[simp] def d8 : St Nat := { d7 with
          map := ((fun l => if l = 0 then some 0 else none)), valid := d7.ddirty, dirty := d7.ddirty
          req := fun i => (d7.req i).done }
theorem dt8 : Step 2 d7 .other .crash d8 :=
  Step.crash d7 ((fun l => if l = 0 then some 0 else none)) (by gd) (by gd)
@[simp] def d9 : St Nat := (d8.setReq 3 (Req.fresh ({ idle with on := fun c => c == 0, has := (fun c t => (c == 0 && t == 1)), data := fun _ _ => 0 }) (.wo) .look false))
theorem dt9 : Step 2 d8 .other (.invR 3 ({ idle with on := fun c => c == 0, has := (fun c t => (c == 0 && t == 1)), data := fun _ _ => 0 }).has) d9 :=
  Step.invR d8 3 ({ idle with on := fun c => c == 0, has := (fun c t => (c == 0 && t == 1)), data := fun _ _ => 0 }) (.wo) false (by gd) (by gd) (by gd) (by gd) (by gd)
@[simp] def d10 : St Nat := (d9.setReq 3 { d9.req 3 with ent := upd (d9.req 3).ent 0 (.line 0) })
theorem dt10 : Step 2 d9 .other .tau d10 :=
  Step.look d9 3 0 0 (by gd) (by gd) (by gd) (by gd)
@[simp] def d11 : St Nat := (d10.setReq 3 { d10.req 3 with held := upd (d10.req 3).held 0 true })
theorem dt11 : Step 2 d10 .other .tau d11 :=
  Step.grab d10 3 0 0 (by gd) (by gd) (by gd) (by gd)
@[simp] def d12 : St Nat := (d11.setReq 3 { d11.req 3 with pc := .oread, dany := true })
theorem dt12 : Step 2 d11 .other .tau d12 :=
  Step.goCoreWo d11 3 true (by gd) (by gd) (by gd) (by gd)
@[simp] def d13 : St Nat := (d12.setReq 3 { d12.req 3 with res := upd2 (d12.req 3).res 0 1 (some (d12.core 0 1)) })
theorem dt13 : Step 2 d12 .other .tau d13 :=
  Step.rdCore d12 3 0 1 (by gd) (by gd)
@[simp] def d14 : St Nat := (d13.setReq 3 { d13.req 3 with pc := .over, toCache := ((fun c t => c == 0 && t == 1)) })
theorem dt14 : Step 2 d13 .other .tau d14 :=
  Step.goOver d13 3 ((fun c t => c == 0 && t == 1)) (by gd) (by gd) (by gd) (by gd) (by gd)
@[simp] def d15 : St Nat := (d14.setReq 3 { d14.req 3 with
          res := upd2 (d14.req 3).res 0 1 (some (d14.cache 0 1))
          toCache := upd2 (d14.req 3).toCache 0 1 false })
theorem dt15 : Step 2 d14 .other .tau d15 :=
  Step.rdOver d14 3 0 1 0 (by gd) (by gd) (by gd)
@[simp] def d16 : St Nat := (d15.setReq 3 (d15.req 3).done)
theorem dt16 : Step 2 d15 .other (.retR 3 (d15.req 3).res) d16 :=
  Step.ret d15 3 (by gd) (by gd)

/-- `reads_permitted_after_crashes_no_wi` applied to a write-back write, a power
failure after its acknowledgement, and a read, which returns the value written. -/
example : ∃ m, Run 2 (fun s a _ => NoPurge s ∧ NoDirtyDrop s a ∧ NoFlushError s a) d15 m ∧
    m.Permits (obs (.retR 3 (d15.req 3).res)) ∧ (d15.req 3).res 0 1 = some 3 := by

  have r1 := (Run.init init0 : Run 2 (fun s a (_ : Ev Nat) => NoPurge s ∧ NoDirtyDrop s a ∧ NoFlushError s a) d0 m0).step dt1
    ⟨(by unfold NoPurge; gd), (by nofun), (by nofun)⟩ (.callW _ _ _)
  have r2 := r1.step dt2
    ⟨(by unfold NoPurge; gd), (by nofun), (by nofun)⟩ (.nothing)
  have r3 := r2.step dt3
    ⟨(by unfold NoPurge; gd), (by nofun), (by nofun)⟩ (.nothing)
  have r4 := r3.step dt4
    ⟨(by unfold NoPurge; gd), (by nofun), (by nofun)⟩ (.nothing)
  have r5 := r4.step dt5
    ⟨(by unfold NoPurge; gd), (by nofun), (by nofun)⟩ (.nothing)
  have r6 := r5.step dt6
    ⟨(by unfold NoPurge; gd), (by nofun), (by nofun)⟩ (.nothing)
  have r7 := r6.step dt7
    ⟨(by unfold NoPurge; gd), (by nofun), (by nofun)⟩ (.ackW _)
  have r8 := r7.step dt8
    ⟨(by unfold NoPurge; gd), (by nofun), (by nofun)⟩ (.crash)
  have r9 := r8.step dt9
    ⟨(by unfold NoPurge; gd), (by nofun), (by nofun)⟩ (.callR _ _)
  have r10 := r9.step dt10
    ⟨(by unfold NoPurge; gd), (by nofun), (by nofun)⟩ (.nothing)
  have r11 := r10.step dt11
    ⟨(by unfold NoPurge; gd), (by nofun), (by nofun)⟩ (.nothing)
  have r12 := r11.step dt12
    ⟨(by unfold NoPurge; gd), (by nofun), (by nofun)⟩ (.nothing)
  have r13 := r12.step dt13
    ⟨(by unfold NoPurge; gd), (by nofun), (by nofun)⟩ (.nothing)
  have r14 := r13.step dt14
    ⟨(by unfold NoPurge; gd), (by nofun), (by nofun)⟩ (.nothing)
  have r15 := r14.step dt15
    ⟨(by unfold NoPurge; gd), (by nofun), (by nofun)⟩ (.nothing)
  exact ⟨_, r15, reads_permitted_after_crashes_no_wi r15 dt16 (by unfold NoPurge; gd) (by nofun) (by nofun), rfl⟩

/-- `reads_permitted_after_crashes_partial` applied to the same run. -/
example : ∃ m, Run 2 (fun s a _ => Calm s a) d15 m ∧
    m.Permits (obs (.retR 3 (d15.req 3).res)) := by

  have r1 := (Run.init init0 : Run 2 (fun s a (_ : Ev Nat) => Calm s a) d0 m0).step dt1
    ⟨(by nofun), (by unfold NoUnflushedPurge; simp), (by nofun), (by nofun)⟩ (.callW _ _ _)
  have r2 := r1.step dt2
    ⟨(by nofun), (by unfold NoUnflushedPurge; simp [St.setReq]), (by nofun), (by nofun)⟩ (.nothing)
  have r3 := r2.step dt3
    ⟨(by nofun), (by unfold NoUnflushedPurge; simp), (by nofun), (by nofun)⟩ (.nothing)
  have r4 := r3.step dt4
    ⟨(by nofun), (by unfold NoUnflushedPurge; simp), (by nofun), (by nofun)⟩ (.nothing)
  have r5 := r4.step dt5
    ⟨(by nofun), (by unfold NoUnflushedPurge; simp), (by nofun), (by nofun)⟩ (.nothing)
  have r6 := r5.step dt6
    ⟨(by nofun), (by unfold NoUnflushedPurge; simp), (by nofun), (by nofun)⟩ (.nothing)
  have r7 := r6.step dt7
    ⟨(by nofun), (by unfold NoUnflushedPurge; simp), (by nofun), (by nofun)⟩ (.ackW _)
  have r8 := r7.step dt8
    ⟨(by nofun), (by unfold NoUnflushedPurge; simp), (by nofun), (by nofun)⟩ (.crash)
  have r9 := r8.step dt9
    ⟨(by nofun), (by unfold NoUnflushedPurge; simp), (by nofun), (by nofun)⟩ (.callR _ _)
  have r10 := r9.step dt10
    ⟨(by nofun), (by unfold NoUnflushedPurge; simp), (by nofun), (by nofun)⟩ (.nothing)
  have r11 := r10.step dt11
    ⟨(by nofun), (by unfold NoUnflushedPurge; simp), (by nofun), (by nofun)⟩ (.nothing)
  have r12 := r11.step dt12
    ⟨(by nofun), (by unfold NoUnflushedPurge; simp), (by nofun), (by nofun)⟩ (.nothing)
  have r13 := r12.step dt13
    ⟨(by nofun), (by unfold NoUnflushedPurge; simp), (by nofun), (by nofun)⟩ (.nothing)
  have r14 := r13.step dt14
    ⟨(by nofun), (by unfold NoUnflushedPurge; simp), (by nofun), (by nofun)⟩ (.nothing)
  have r15 := r14.step dt15
    ⟨(by nofun), (by unfold NoUnflushedPurge; simp), (by nofun), (by nofun)⟩ (.nothing)
  exact ⟨_, r15, reads_permitted_after_crashes_partial r15 dt16
    ⟨(by nofun), (by unfold NoUnflushedPurge; simp), (by nofun), (by nofun)⟩⟩

/-! ## An acknowledged write lost by a failing cache write

* Write 0 (write-back, 1 into sector 0) makes the sector dirty, flushes the metadata and is
  acknowledged.
* Write 1 (write-through, 5 into sector 0) reaches the core.  Its cache write fails; it
  drops its sector from the cache in RAM, without flushing the metadata, and is
  acknowledged.
* The power fails.  The cache device still records the sector as dirty.
* Read 2 of sector 0 returns the 1 of write 0 from the cache. -/

@[simp] abbrev f0 := a0
@[simp] def f1 : St Nat := (f0.setReq 0 (Req.fresh ({ idle with on := fun c => c == 0, has := (fun c t => (c == 0 && t == 0)), data := fun _ _ => 1 }) (.wb) .look true))
theorem ft1 : Step 2 f0 .other (.invW 0 ({ idle with on := fun c => c == 0, has := (fun c t => (c == 0 && t == 0)), data := fun _ _ => 1 }).has ({ idle with on := fun c => c == 0, has := (fun c t => (c == 0 && t == 0)), data := fun _ _ => 1 }).data) f1 :=
  Step.invW f0 0 ({ idle with on := fun c => c == 0, has := (fun c t => (c == 0 && t == 0)), data := fun _ _ => 1 }) (.wb) (by gd) (by gd) (by gd) (by gd) (by gd)
@[simp] def f2 : St Nat := { f1 with
          map := upd f1.map 0 (some 0)
          valid := fun k t => if k = 0 then false else f1.valid k t
          req := upd f1.req 0
            { f1.req 0 with
              ent := upd (f1.req 0).ent 0 (.line 0)
              held := upd (f1.req 0).held 0 true } }
theorem ft2 : Step 2 f1 (.remap 0 0) .tau f2 :=
  Step.remap f1 0 0 0 (by gd) (by gd) (by gd) (by gd) (by gd) (by gd) (by gd) (by gd)
@[simp] def f3 : St Nat := { f2 with
          valid := (f2.valid)
          req := upd f2.req 0
            { f2.req 0 with
              pc := .xfer
              toCache := fun c t => (f2.req 0).has c t &&
                ((f2.req 0).eng == .wt || (f2.req 0).eng == .wb)
              toCore := fun c t => (f2.req 0).has c t &&
                ((f2.req 0).eng == .wt || (f2.req 0).eng == .wi) } }
theorem ft3 : Step 2 f2 .other .tau f3 :=
  Step.goWrite f2 0 false (f2.valid) (by gd) (by gd) (by gd) (by gd) (by gd)
@[simp] def f4 : St Nat := { f3 with
          cache := upd2 f3.cache 0 0 ((f3.req 0).data 0 0)
          req := upd f3.req 0
            { f3.req 0 with toCache := upd2 (f3.req 0).toCache 0 0 false } }
theorem ft4 : Step 2 f3 .other .tau f4 :=
  Step.wCache f3 0 0 0 0 (by gd) (by gd) (by gd)
@[simp] def f5 : St Nat := { f4 with
          valid := fun k t => if k = 0 ∧ (f4.req 0).has 0 t = true then
            ((f4.req 0).eng == .wt || (f4.req 0).eng == .wb) else f4.valid k t
          dirty := fun k t => if k = 0 ∧ (f4.req 0).has 0 t = true then
            ((f4.req 0).eng == .wb) else f4.dirty k t
          req := upd f4.req 0
            { f4.req 0 with
              updd := upd (f4.req 0).updd 0 true
              need := upd (f4.req 0).need 0 true } }
theorem ft5 : Step 2 f4 .other .tau f5 :=
  Step.update f4 0 0 0 true (by gd) (by gd) (by gd) (by gd) (by gd) (by gd)
@[simp] def f6 : St Nat := { f5 with
          dmap := upd f5.dmap 0 (f5.map 0)
          ddirty := upd f5.ddirty 0 (f5.dirty 0)
          req := upd f5.req 0 { f5.req 0 with need := upd (f5.req 0).need 0 false } }
theorem ft6 : Step 2 f5 .other .tau f6 :=
  Step.flush f5 0 0 0 (by gd) (by gd)
@[simp] def f7 : St Nat := (f6.setReq 0 (f6.req 0).done)
theorem ft7 : Step 2 f6 .other (.ackW 0) f7 :=
  Step.ack f6 0 (by gd) (by gd) (by gd) (by gd) (by gd) (by gd)
@[simp] def f8 : St Nat := (f7.setReq 1 (Req.fresh ({ idle with on := fun c => c == 0, has := (fun c t => (c == 0 && t == 0)), data := fun _ _ => 5 }) (.wt) .look true))
theorem ft8 : Step 2 f7 .other (.invW 1 ({ idle with on := fun c => c == 0, has := (fun c t => (c == 0 && t == 0)), data := fun _ _ => 5 }).has ({ idle with on := fun c => c == 0, has := (fun c t => (c == 0 && t == 0)), data := fun _ _ => 5 }).data) f8 :=
  Step.invW f7 1 ({ idle with on := fun c => c == 0, has := (fun c t => (c == 0 && t == 0)), data := fun _ _ => 5 }) (.wt) (by gd) (by gd) (by gd) (by gd) (by gd)
@[simp] def f9 : St Nat := (f8.setReq 1 { f8.req 1 with ent := upd (f8.req 1).ent 0 (.line 0) })
theorem ft9 : Step 2 f8 .other .tau f9 :=
  Step.look f8 1 0 0 (by gd) (by gd) (by gd) (by gd)
@[simp] def f10 : St Nat := (f9.setReq 1 { f9.req 1 with held := upd (f9.req 1).held 0 true })
theorem ft10 : Step 2 f9 .other .tau f10 :=
  Step.grab f9 1 0 0 (by gd) (by gd) (by gd) (by gd)
@[simp] def f11 : St Nat := { f10 with
          valid := (f10.valid)
          req := upd f10.req 1
            { f10.req 1 with
              pc := .xfer
              toCache := fun c t => (f10.req 1).has c t &&
                ((f10.req 1).eng == .wt || (f10.req 1).eng == .wb)
              toCore := fun c t => (f10.req 1).has c t &&
                ((f10.req 1).eng == .wt || (f10.req 1).eng == .wi) } }
theorem ft11 : Step 2 f10 .other .tau f11 :=
  Step.goWrite f10 1 false (f10.valid) (by gd) (by gd) (by gd) (by gd) (by gd)
@[simp] def f12 : St Nat := { f11 with
          core := upd2 f11.core 0 0 ((f11.req 1).data 0 0)
          req := upd f11.req 1
            { f11.req 1 with toCore := upd2 (f11.req 1).toCore 0 0 false } }
theorem ft12 : Step 2 f11 .other .tau f12 :=
  Step.wCore f11 1 0 0 (by gd) (by gd)
@[simp] def f13 : St Nat := { f12 with valid := (fun k t => f12.valid k t && !(k == 0 && t == 0)), dirty := (fun k t => f12.dirty k t && !(k == 0 && t == 0)), req := upd f12.req 1 (f12.req 1).done }
theorem ft13 : Step 2 f12 (.purge 1) (.ackW 1) f13 :=
  Step.ackErr f12 1 (fun k t => f12.valid k t && !(k == 0 && t == 0)) (fun k t => f12.dirty k t && !(k == 0 && t == 0)) (by gd) (by gd) (by gd) (by gd) (by gp) (by gp)
@[simp] def f14 : St Nat := { f13 with
          map := ((fun l => if l = 0 then some 0 else none)), valid := f13.ddirty, dirty := f13.ddirty
          req := fun i => (f13.req i).done }
theorem ft14 : Step 2 f13 .other .crash f14 :=
  Step.crash f13 ((fun l => if l = 0 then some 0 else none)) (by gd) (by gd)
@[simp] def f15 : St Nat := (f14.setReq 2 (Req.fresh ({ idle with on := fun c => c == 0, has := (fun c t => (c == 0 && t == 0)), data := fun _ _ => 0 }) (.gen) .look false))
theorem ft15 : Step 2 f14 .other (.invR 2 ({ idle with on := fun c => c == 0, has := (fun c t => (c == 0 && t == 0)), data := fun _ _ => 0 }).has) f15 :=
  Step.invR f14 2 ({ idle with on := fun c => c == 0, has := (fun c t => (c == 0 && t == 0)), data := fun _ _ => 0 }) (.gen) false (by gd) (by gd) (by gd) (by gd) (by gd)
@[simp] def f16 : St Nat := (f15.setReq 2 { f15.req 2 with ent := upd (f15.req 2).ent 0 (.line 0) })
theorem ft16 : Step 2 f15 .other .tau f16 :=
  Step.look f15 2 0 0 (by gd) (by gd) (by gd) (by gd)
@[simp] def f17 : St Nat := (f16.setReq 2 { f16.req 2 with held := upd (f16.req 2).held 0 true })
theorem ft17 : Step 2 f16 .other .tau f17 :=
  Step.grab f16 2 0 0 (by gd) (by gd) (by gd) (by gd)
@[simp] def f18 : St Nat := (f17.setReq 2 { f17.req 2 with pc := .cread })
theorem ft18 : Step 2 f17 .other .tau f18 :=
  Step.goHit f17 2 (by gd) (by gd) (by gd) (by gd)
@[simp] def f19 : St Nat := (f18.setReq 2 { f18.req 2 with res := upd2 (f18.req 2).res 0 0 (some (f18.cache 0 0)) })
theorem ft19 : Step 2 f18 .other .tau f19 :=
  Step.rdCache f18 2 0 0 0 (by gd) (by gd) (by gd)
@[simp] def f20 : St Nat := (f19.setReq 2 (f19.req 2).done)
theorem ft20 : Step 2 f19 .other (.retR 2 (f19.req 2).res) f20 :=
  Step.ret f19 2 (by gd) (by gd)

theorem frun : ∃ m, Run 2 (fun s a _ => NoStaleWriteback s a ∧ NoUnflushedPurge s a ∧ NoFlushError s a) f19 m ∧
    ¬ m.Permits (obs (.retR 2 (f19.req 2).res)) := by
  have r1 := (Run.init init0 : Run 2 (fun s a (_ : Ev Nat) => NoStaleWriteback s a ∧ NoUnflushedPurge s a ∧ NoFlushError s a) f0 m0).step ft1
    ⟨(by nofun), (by unfold NoUnflushedPurge; simp), (by nofun)⟩ (.callW _ _ _)
  have r2 := r1.step ft2
    ⟨(by nofun), (by unfold NoUnflushedPurge; simp [St.setReq]), (by nofun)⟩ (.nothing)
  have r3 := r2.step ft3
    ⟨(by nofun), (by unfold NoUnflushedPurge; simp), (by nofun)⟩ (.nothing)
  have r4 := r3.step ft4
    ⟨(by nofun), (by unfold NoUnflushedPurge; simp), (by nofun)⟩ (.nothing)
  have r5 := r4.step ft5
    ⟨(by nofun), (by unfold NoUnflushedPurge; simp), (by nofun)⟩ (.nothing)
  have r6 := r5.step ft6
    ⟨(by nofun), (by unfold NoUnflushedPurge; simp), (by nofun)⟩ (.nothing)
  have r7 := r6.step ft7
    ⟨(by nofun), (by unfold NoUnflushedPurge; simp), (by nofun)⟩ (.ackW _)
  have r8 := r7.step ft8
    ⟨(by nofun), (by unfold NoUnflushedPurge; simp), (by nofun)⟩ (.callW _ _ _)
  have r9 := r8.step ft9
    ⟨(by nofun), (by unfold NoUnflushedPurge; simp), (by nofun)⟩ (.nothing)
  have r10 := r9.step ft10
    ⟨(by nofun), (by unfold NoUnflushedPurge; simp), (by nofun)⟩ (.nothing)
  have r11 := r10.step ft11
    ⟨(by nofun), (by unfold NoUnflushedPurge; simp), (by nofun)⟩ (.nothing)
  have r12 := r11.step ft12
    ⟨(by nofun), (by unfold NoUnflushedPurge; simp), (by nofun)⟩ (.nothing)
  have r13 := r12.step ft13
    ⟨(by nofun), (by unfold NoUnflushedPurge; simp), (by nofun)⟩ (.ackW _)
  have r14 := r13.step ft14
    ⟨(by nofun), (by unfold NoUnflushedPurge; simp), (by nofun)⟩ (.crash)
  have r15 := r14.step ft15
    ⟨(by nofun), (by unfold NoUnflushedPurge; simp), (by nofun)⟩ (.callR _ _)
  have r16 := r15.step ft16
    ⟨(by nofun), (by unfold NoUnflushedPurge; simp), (by nofun)⟩ (.nothing)
  have r17 := r16.step ft17
    ⟨(by nofun), (by unfold NoUnflushedPurge; simp), (by nofun)⟩ (.nothing)
  have r18 := r17.step ft18
    ⟨(by nofun), (by unfold NoUnflushedPurge; simp), (by nofun)⟩ (.nothing)
  have r19 := r18.step ft19
    ⟨(by nofun), (by unfold NoUnflushedPurge; simp), (by nofun)⟩ (.nothing)
  refine ⟨_, r19, fun h => ?_⟩
  obtain ⟨v, h1, h2⟩ := h 0 0 (by simp)
  have h3 : (f19.req 2).res 0 0 = some 1 := rfl
  rw [h3] at h1
  cases h1
  simp [Mon.busy] at h2
  obtain ⟨k, hk⟩ := h2
  by_cases q0 : k = 0 <;> by_cases q1 : k = 1 <;> simp [q0, q1] at hk

/-- C02 fails when a write-through write whose cache write fails may be acknowledged over
a dirty sector: the power fails after the acknowledgement, and a read after the restart
returns the value before that write. -/
theorem cache_error_loses_acknowledged_write :
    ∃ (s s' : St Nat) (m : Mon Nat) (e : Ev Nat),
      Run 2 (fun s a _ => NoStaleWriteback s a ∧ NoUnflushedPurge s a ∧ NoFlushError s a) s m ∧
      Step 2 s .other e s' ∧ ¬ m.Permits (obs e) := by
  obtain ⟨m, h1, h2⟩ := frun
  exact ⟨_, _, _, _, h1, ft20, h2⟩


/-! ## An acknowledged write lost after a failing metadata flush

* Write 0 (write-back, 1 into sector 0) makes the sector dirty; the flush of the metadata
  fails and the write completes with an error.
* Write 1 (write-back, 5 into sector 0) finds the sector dirty already, so it does not
  flush the metadata (`utils_cache_line.c:134-174`), and is acknowledged.
* The power fails.  The cache device does not know that the sector is dirty.
* Read 2 of sector 0 returns the 0 of the core. -/

@[simp] abbrev g0 := a0
@[simp] def g1 : St Nat := (g0.setReq 0 (Req.fresh ({ idle with on := fun c => c == 0, has := (fun c t => (c == 0 && t == 0)), data := fun _ _ => 1 }) (.wb) .look true))
theorem gt1 : Step 2 g0 .other (.invW 0 ({ idle with on := fun c => c == 0, has := (fun c t => (c == 0 && t == 0)), data := fun _ _ => 1 }).has ({ idle with on := fun c => c == 0, has := (fun c t => (c == 0 && t == 0)), data := fun _ _ => 1 }).data) g1 :=
  Step.invW g0 0 ({ idle with on := fun c => c == 0, has := (fun c t => (c == 0 && t == 0)), data := fun _ _ => 1 }) (.wb) (by gd) (by gd) (by gd) (by gd) (by gd)
@[simp] def g2 : St Nat := { g1 with
          map := upd g1.map 0 (some 0)
          valid := fun k t => if k = 0 then false else g1.valid k t
          req := upd g1.req 0
            { g1.req 0 with
              ent := upd (g1.req 0).ent 0 (.line 0)
              held := upd (g1.req 0).held 0 true } }
theorem gt2 : Step 2 g1 (.remap 0 0) .tau g2 :=
  Step.remap g1 0 0 0 (by gd) (by gd) (by gd) (by gd) (by gd) (by gd) (by gd) (by gd)
@[simp] def g3 : St Nat := { g2 with
          valid := (g2.valid)
          req := upd g2.req 0
            { g2.req 0 with
              pc := .xfer
              toCache := fun c t => (g2.req 0).has c t &&
                ((g2.req 0).eng == .wt || (g2.req 0).eng == .wb)
              toCore := fun c t => (g2.req 0).has c t &&
                ((g2.req 0).eng == .wt || (g2.req 0).eng == .wi) } }
theorem gt3 : Step 2 g2 .other .tau g3 :=
  Step.goWrite g2 0 false (g2.valid) (by gd) (by gd) (by gd) (by gd) (by gd)
@[simp] def g4 : St Nat := { g3 with
          cache := upd2 g3.cache 0 0 ((g3.req 0).data 0 0)
          req := upd g3.req 0
            { g3.req 0 with toCache := upd2 (g3.req 0).toCache 0 0 false } }
theorem gt4 : Step 2 g3 .other .tau g4 :=
  Step.wCache g3 0 0 0 0 (by gd) (by gd) (by gd)
@[simp] def g5 : St Nat := { g4 with
          valid := fun k t => if k = 0 ∧ (g4.req 0).has 0 t = true then
            ((g4.req 0).eng == .wt || (g4.req 0).eng == .wb) else g4.valid k t
          dirty := fun k t => if k = 0 ∧ (g4.req 0).has 0 t = true then
            ((g4.req 0).eng == .wb) else g4.dirty k t
          req := upd g4.req 0
            { g4.req 0 with
              updd := upd (g4.req 0).updd 0 true
              need := upd (g4.req 0).need 0 true } }
theorem gt5 : Step 2 g4 .other .tau g5 :=
  Step.update g4 0 0 0 true (by gd) (by gd) (by gd) (by gd) (by gd) (by gd)
@[simp] def g6 : St Nat := (g5.setReq 0 (g5.req 0).done)
theorem gt6 : Step 2 g5 (.quit 0) (.errW 0) g6 :=
  Step.errW g5 0 (by gd) (by gd)
@[simp] def g7 : St Nat := (g6.setReq 1 (Req.fresh ({ idle with on := fun c => c == 0, has := (fun c t => (c == 0 && t == 0)), data := fun _ _ => 5 }) (.wb) .look true))
theorem gt7 : Step 2 g6 .other (.invW 1 ({ idle with on := fun c => c == 0, has := (fun c t => (c == 0 && t == 0)), data := fun _ _ => 5 }).has ({ idle with on := fun c => c == 0, has := (fun c t => (c == 0 && t == 0)), data := fun _ _ => 5 }).data) g7 :=
  Step.invW g6 1 ({ idle with on := fun c => c == 0, has := (fun c t => (c == 0 && t == 0)), data := fun _ _ => 5 }) (.wb) (by gd) (by gd) (by gd) (by gd) (by gd)
@[simp] def g8 : St Nat := (g7.setReq 1 { g7.req 1 with ent := upd (g7.req 1).ent 0 (.line 0) })
theorem gt8 : Step 2 g7 .other .tau g8 :=
  Step.look g7 1 0 0 (by gd) (by gd) (by gd) (by gd)
@[simp] def g9 : St Nat := (g8.setReq 1 { g8.req 1 with held := upd (g8.req 1).held 0 true })
theorem gt9 : Step 2 g8 .other .tau g9 :=
  Step.grab g8 1 0 0 (by gd) (by gd) (by gd) (by gd)
@[simp] def g10 : St Nat := { g9 with
          valid := (g9.valid)
          req := upd g9.req 1
            { g9.req 1 with
              pc := .xfer
              toCache := fun c t => (g9.req 1).has c t &&
                ((g9.req 1).eng == .wt || (g9.req 1).eng == .wb)
              toCore := fun c t => (g9.req 1).has c t &&
                ((g9.req 1).eng == .wt || (g9.req 1).eng == .wi) } }
theorem gt10 : Step 2 g9 .other .tau g10 :=
  Step.goWrite g9 1 false (g9.valid) (by gd) (by gd) (by gd) (by gd) (by gd)
@[simp] def g11 : St Nat := { g10 with
          cache := upd2 g10.cache 0 0 ((g10.req 1).data 0 0)
          req := upd g10.req 1
            { g10.req 1 with toCache := upd2 (g10.req 1).toCache 0 0 false } }
theorem gt11 : Step 2 g10 .other .tau g11 :=
  Step.wCache g10 1 0 0 0 (by gd) (by gd) (by gd)
@[simp] def g12 : St Nat := { g11 with
          valid := fun k t => if k = 0 ∧ (g11.req 1).has 0 t = true then
            ((g11.req 1).eng == .wt || (g11.req 1).eng == .wb) else g11.valid k t
          dirty := fun k t => if k = 0 ∧ (g11.req 1).has 0 t = true then
            ((g11.req 1).eng == .wb) else g11.dirty k t
          req := upd g11.req 1
            { g11.req 1 with
              updd := upd (g11.req 1).updd 0 true
              need := upd (g11.req 1).need 0 false } }
theorem gt12 : Step 2 g11 .other .tau g12 :=
  Step.update g11 1 0 0 false (by gd) (by gd) (by gd) (by gd) (by gd) (by gd)
@[simp] def g13 : St Nat := (g12.setReq 1 (g12.req 1).done)
theorem gt13 : Step 2 g12 .other (.ackW 1) g13 :=
  Step.ack g12 1 (by gd) (by gd) (by gd) (by gd) (by gd) (by gd)
@[simp] def g14 : St Nat := { g13 with
          map := ((fun _ => none)), valid := g13.ddirty, dirty := g13.ddirty
          req := fun i => (g13.req i).done }
theorem gt14 : Step 2 g13 .other .crash g14 :=
  Step.crash g13 ((fun _ => none)) (by gd) (by gd)
@[simp] def g15 : St Nat := (g14.setReq 2 (Req.fresh ({ idle with on := fun c => c == 0, has := (fun c t => (c == 0 && t == 0)), data := fun _ _ => 0 }) (.pt) .look false))
theorem gt15 : Step 2 g14 .other (.invR 2 ({ idle with on := fun c => c == 0, has := (fun c t => (c == 0 && t == 0)), data := fun _ _ => 0 }).has) g15 :=
  Step.invR g14 2 ({ idle with on := fun c => c == 0, has := (fun c t => (c == 0 && t == 0)), data := fun _ _ => 0 }) (.pt) false (by gd) (by gd) (by gd) (by gd) (by gd)
@[simp] def g16 : St Nat := (g15.setReq 2 { g15.req 2 with ent := upd (g15.req 2).ent 0 .none })
theorem gt16 : Step 2 g15 (.miss 2 0) .tau g16 :=
  Step.miss g15 2 0 (by gd) (by gd) (by gd) (by gd) (by gd)
@[simp] def g17 : St Nat := (g16.setReq 2 { g16.req 2 with pc := .oread })
theorem gt17 : Step 2 g16 .other .tau g17 :=
  Step.goCore g16 2 (by gd) (by gd) (by gd) (by gd)
@[simp] def g18 : St Nat := (g17.setReq 2 { g17.req 2 with res := upd2 (g17.req 2).res 0 0 (some (g17.core 0 0)) })
theorem gt18 : Step 2 g17 .other .tau g18 :=
  Step.rdCore g17 2 0 0 (by gd) (by gd)
@[simp] def g19 : St Nat := (g18.setReq 2 (g18.req 2).done)
theorem gt19 : Step 2 g18 .other (.retR 2 (g18.req 2).res) g19 :=
  Step.ret g18 2 (by gd) (by gd)

theorem grun : ∃ m, Run 2 (fun s a _ => NoStaleWriteback s a ∧ NoUnflushedPurge s a ∧ NoDirtyDrop s a) g18 m ∧
    ¬ m.Permits (obs (.retR 2 (g18.req 2).res)) := by
  have r1 := (Run.init init0 : Run 2 (fun s a (_ : Ev Nat) => NoStaleWriteback s a ∧ NoUnflushedPurge s a ∧ NoDirtyDrop s a) g0 m0).step gt1
    ⟨(by nofun), (by unfold NoUnflushedPurge; simp), (by nofun)⟩ (.callW _ _ _)
  have r2 := r1.step gt2
    ⟨(by nofun), (by unfold NoUnflushedPurge; simp [St.setReq]), (by nofun)⟩ (.nothing)
  have r3 := r2.step gt3
    ⟨(by nofun), (by unfold NoUnflushedPurge; simp), (by nofun)⟩ (.nothing)
  have r4 := r3.step gt4
    ⟨(by nofun), (by unfold NoUnflushedPurge; simp), (by nofun)⟩ (.nothing)
  have r5 := r4.step gt5
    ⟨(by nofun), (by unfold NoUnflushedPurge; simp), (by nofun)⟩ (.nothing)
  have r6 := r5.step gt6
    ⟨(by nofun), (by unfold NoUnflushedPurge; simp), (by nofun)⟩ (.errW _)
  have r7 := r6.step gt7
    ⟨(by nofun), (by unfold NoUnflushedPurge; simp), (by nofun)⟩ (.callW _ _ _)
  have r8 := r7.step gt8
    ⟨(by nofun), (by unfold NoUnflushedPurge; simp), (by nofun)⟩ (.nothing)
  have r9 := r8.step gt9
    ⟨(by nofun), (by unfold NoUnflushedPurge; simp), (by nofun)⟩ (.nothing)
  have r10 := r9.step gt10
    ⟨(by nofun), (by unfold NoUnflushedPurge; simp), (by nofun)⟩ (.nothing)
  have r11 := r10.step gt11
    ⟨(by nofun), (by unfold NoUnflushedPurge; simp), (by nofun)⟩ (.nothing)
  have r12 := r11.step gt12
    ⟨(by nofun), (by unfold NoUnflushedPurge; simp), (by nofun)⟩ (.nothing)
  have r13 := r12.step gt13
    ⟨(by nofun), (by unfold NoUnflushedPurge; simp), (by nofun)⟩ (.ackW _)
  have r14 := r13.step gt14
    ⟨(by nofun), (by unfold NoUnflushedPurge; simp), (by nofun)⟩ (.crash)
  have r15 := r14.step gt15
    ⟨(by nofun), (by unfold NoUnflushedPurge; simp), (by nofun)⟩ (.callR _ _)
  have r16 := r15.step gt16
    ⟨(by nofun), (by unfold NoUnflushedPurge; simp [St.setReq]), (by nofun)⟩ (.nothing)
  have r17 := r16.step gt17
    ⟨(by nofun), (by unfold NoUnflushedPurge; simp), (by nofun)⟩ (.nothing)
  have r18 := r17.step gt18
    ⟨(by nofun), (by unfold NoUnflushedPurge; simp), (by nofun)⟩ (.nothing)
  refine ⟨_, r18, fun h => ?_⟩
  obtain ⟨v, h1, h2⟩ := h 0 0 (by simp)
  have h3 : (g18.req 2).res 0 0 = some 0 := rfl
  rw [h3] at h1
  cases h1
  simp [Mon.busy] at h2

/-- C02 fails after a metadata flush failed: a later write to the same sector is
acknowledged without its metadata being on the cache device; the power fails after the
acknowledgement, and a read after the restart returns the value before both writes. -/
theorem flush_error_loses_acknowledged_write :
    ∃ (s s' : St Nat) (m : Mon Nat) (e : Ev Nat),
      Run 2 (fun s a _ => NoStaleWriteback s a ∧ NoUnflushedPurge s a ∧ NoDirtyDrop s a) s m ∧
      Step 2 s .other e s' ∧ ¬ m.Permits (obs e) := by
  obtain ⟨m, h1, h2⟩ := grun
  exact ⟨_, _, _, _, h1, gt19, h2⟩


/-! ## Errors which lose nothing -/

@[simp] abbrev h0 := a0
@[simp] def h1 : St Nat := (h0.setReq 0 (Req.fresh ({ idle with on := fun c => c == 0, has := (fun c t => (c == 0 && t == 0)), data := fun _ _ => 5 }) (.wt) .look true))
theorem ht1 : Step 2 h0 .other (.invW 0 ({ idle with on := fun c => c == 0, has := (fun c t => (c == 0 && t == 0)), data := fun _ _ => 5 }).has ({ idle with on := fun c => c == 0, has := (fun c t => (c == 0 && t == 0)), data := fun _ _ => 5 }).data) h1 :=
  Step.invW h0 0 ({ idle with on := fun c => c == 0, has := (fun c t => (c == 0 && t == 0)), data := fun _ _ => 5 }) (.wt) (by gd) (by gd) (by gd) (by gd) (by gd)
@[simp] def h2 : St Nat := { h1 with
          map := upd h1.map 0 (some 0)
          valid := fun k t => if k = 0 then false else h1.valid k t
          req := upd h1.req 0
            { h1.req 0 with
              ent := upd (h1.req 0).ent 0 (.line 0)
              held := upd (h1.req 0).held 0 true } }
theorem ht2 : Step 2 h1 (.remap 0 0) .tau h2 :=
  Step.remap h1 0 0 0 (by gd) (by gd) (by gd) (by gd) (by gd) (by gd) (by gd) (by gd)
@[simp] def h3 : St Nat := { h2 with
          valid := (h2.valid)
          req := upd h2.req 0
            { h2.req 0 with
              pc := .xfer
              toCache := fun c t => (h2.req 0).has c t &&
                ((h2.req 0).eng == .wt || (h2.req 0).eng == .wb)
              toCore := fun c t => (h2.req 0).has c t &&
                ((h2.req 0).eng == .wt || (h2.req 0).eng == .wi) } }
theorem ht3 : Step 2 h2 .other .tau h3 :=
  Step.goWrite h2 0 false (h2.valid) (by gd) (by gd) (by gd) (by gd) (by gd)
@[simp] def h4 : St Nat := { h3 with
          core := upd2 h3.core 0 0 ((h3.req 0).data 0 0)
          req := upd h3.req 0
            { h3.req 0 with toCore := upd2 (h3.req 0).toCore 0 0 false } }
theorem ht4 : Step 2 h3 .other .tau h4 :=
  Step.wCore h3 0 0 0 (by gd) (by gd)
@[simp] def h5 : St Nat := { h4 with valid := (fun k t => h4.valid k t && !(k == 0 && t == 0)), dirty := (fun k t => h4.dirty k t && !(k == 0 && t == 0)), req := upd h4.req 0 (h4.req 0).done }
theorem ht5 : Step 2 h4 (.purge 0) (.ackW 0) h5 :=
  Step.ackErr h4 0 (fun k t => h4.valid k t && !(k == 0 && t == 0)) (fun k t => h4.dirty k t && !(k == 0 && t == 0)) (by gd) (by gd) (by gd) (by gd) (by gp) (by gp)
@[simp] def h6 : St Nat := { h5 with
          map := ((fun _ => none)), valid := h5.ddirty, dirty := h5.ddirty
          req := fun i => (h5.req i).done }
theorem ht6 : Step 2 h5 .other .crash h6 :=
  Step.crash h5 ((fun _ => none)) (by gd) (by gd)
@[simp] def h7 : St Nat := (h6.setReq 2 (Req.fresh ({ idle with on := fun c => c == 0, has := (fun c t => (c == 0 && t == 0)), data := fun _ _ => 0 }) (.pt) .look false))
theorem ht7 : Step 2 h6 .other (.invR 2 ({ idle with on := fun c => c == 0, has := (fun c t => (c == 0 && t == 0)), data := fun _ _ => 0 }).has) h7 :=
  Step.invR h6 2 ({ idle with on := fun c => c == 0, has := (fun c t => (c == 0 && t == 0)), data := fun _ _ => 0 }) (.pt) false (by gd) (by gd) (by gd) (by gd) (by gd)
@[simp] def h8 : St Nat := (h7.setReq 2 { h7.req 2 with ent := upd (h7.req 2).ent 0 .none })
theorem ht8 : Step 2 h7 (.miss 2 0) .tau h8 :=
  Step.miss h7 2 0 (by gd) (by gd) (by gd) (by gd) (by gd)
@[simp] def h9 : St Nat := (h8.setReq 2 { h8.req 2 with pc := .oread })
theorem ht9 : Step 2 h8 .other .tau h9 :=
  Step.goCore h8 2 (by gd) (by gd) (by gd) (by gd)
@[simp] def h10 : St Nat := (h9.setReq 2 { h9.req 2 with res := upd2 (h9.req 2).res 0 0 (some (h9.core 0 0)) })
theorem ht10 : Step 2 h9 .other .tau h10 :=
  Step.rdCore h9 2 0 0 (by gd) (by gd)
@[simp] def h11 : St Nat := (h10.setReq 2 (h10.req 2).done)
theorem ht11 : Step 2 h10 .other (.retR 2 (h10.req 2).res) h11 :=
  Step.ret h10 2 (by gd) (by gd)

/-- `reads_permitted_no_wb` applied to a write-through write whose cache write fails, a
power failure after its acknowledgement, and a read, which returns the value written. -/
example : ∃ m, Run 2 (fun s _ _ => NoWb s) h10 m ∧
    m.Permits (obs (.retR 2 (h10.req 2).res)) ∧ (h10.req 2).res 0 0 = some 5 := by
  have r1 := (Run.init init0 : Run 2 (fun s _ (_ : Ev Nat) => NoWb s) h0 m0).step ht1
    (by unfold NoWb; gd) (.callW _ _ _)
  have r2 := r1.step ht2
    (by unfold NoWb; gd) (.nothing)
  have r3 := r2.step ht3
    (by unfold NoWb; gd) (.nothing)
  have r4 := r3.step ht4
    (by unfold NoWb; gd) (.nothing)
  have r5 := r4.step ht5
    (by unfold NoWb; gd) (.ackW _)
  have r6 := r5.step ht6
    (by unfold NoWb; gd) (.crash)
  have r7 := r6.step ht7
    (by unfold NoWb; gd) (.callR _ _)
  have r8 := r7.step ht8
    (by unfold NoWb; gd) (.nothing)
  have r9 := r8.step ht9
    (by unfold NoWb; gd) (.nothing)
  have r10 := r9.step ht10
    (by unfold NoWb; gd) (.nothing)
  exact ⟨_, r10, reads_permitted_no_wb r10 ht11, rfl⟩

/-- `reads_permitted_after_crashes_partial` applied to the same run. -/
example : ∃ m, Run 2 (fun s a _ => Calm s a) h10 m ∧
    m.Permits (obs (.retR 2 (h10.req 2).res)) := by
  have r1 := (Run.init init0 : Run 2 (fun s a (_ : Ev Nat) => Calm s a) h0 m0).step ht1
    ⟨(by nofun), (by unfold NoUnflushedPurge; simp), (by nofun), (by nofun)⟩ (.callW _ _ _)
  have r2 := r1.step ht2
    ⟨(by nofun), (by unfold NoUnflushedPurge; simp [St.setReq]), (by nofun), (by nofun)⟩ (.nothing)
  have r3 := r2.step ht3
    ⟨(by nofun), (by unfold NoUnflushedPurge; simp), (by nofun), (by nofun)⟩ (.nothing)
  have r4 := r3.step ht4
    ⟨(by nofun), (by unfold NoUnflushedPurge; simp), (by nofun), (by nofun)⟩ (.nothing)
  have r5 := r4.step ht5
    ⟨(by nofun), (by unfold NoUnflushedPurge; simp), (by rintro _ ⟨⟩; gd), (by nofun)⟩ (.ackW _)
  have r6 := r5.step ht6
    ⟨(by nofun), (by unfold NoUnflushedPurge; simp), (by nofun), (by nofun)⟩ (.crash)
  have r7 := r6.step ht7
    ⟨(by nofun), (by unfold NoUnflushedPurge; simp), (by nofun), (by nofun)⟩ (.callR _ _)
  have r8 := r7.step ht8
    ⟨(by nofun), (by unfold NoUnflushedPurge; simp [St.setReq]), (by nofun), (by nofun)⟩ (.nothing)
  have r9 := r8.step ht9
    ⟨(by nofun), (by unfold NoUnflushedPurge; simp), (by nofun), (by nofun)⟩ (.nothing)
  have r10 := r9.step ht10
    ⟨(by nofun), (by unfold NoUnflushedPurge; simp), (by nofun), (by nofun)⟩ (.nothing)
  exact ⟨_, r10, reads_permitted_after_crashes_partial r10 ht11
    ⟨(by nofun), (by unfold NoUnflushedPurge; simp), (by nofun), (by nofun)⟩⟩

@[simp] abbrev i0 := a0
@[simp] def i1 : St Nat := (i0.setReq 0 (Req.fresh ({ idle with on := fun c => c == 0, has := (fun c t => (c == 0 && t == 0)), data := fun _ _ => 5 }) (.wt) .look true))
theorem it1 : Step 2 i0 .other (.invW 0 ({ idle with on := fun c => c == 0, has := (fun c t => (c == 0 && t == 0)), data := fun _ _ => 5 }).has ({ idle with on := fun c => c == 0, has := (fun c t => (c == 0 && t == 0)), data := fun _ _ => 5 }).data) i1 :=
  Step.invW i0 0 ({ idle with on := fun c => c == 0, has := (fun c t => (c == 0 && t == 0)), data := fun _ _ => 5 }) (.wt) (by gd) (by gd) (by gd) (by gd) (by gd)
@[simp] def i2 : St Nat := { i1 with
          map := upd i1.map 0 (some 0)
          valid := fun k t => if k = 0 then false else i1.valid k t
          req := upd i1.req 0
            { i1.req 0 with
              ent := upd (i1.req 0).ent 0 (.line 0)
              held := upd (i1.req 0).held 0 true } }
theorem it2 : Step 2 i1 (.remap 0 0) .tau i2 :=
  Step.remap i1 0 0 0 (by gd) (by gd) (by gd) (by gd) (by gd) (by gd) (by gd) (by gd)
@[simp] def i3 : St Nat := { i2 with
          valid := (i2.valid)
          req := upd i2.req 0
            { i2.req 0 with
              pc := .xfer
              toCache := fun c t => (i2.req 0).has c t &&
                ((i2.req 0).eng == .wt || (i2.req 0).eng == .wb)
              toCore := fun c t => (i2.req 0).has c t &&
                ((i2.req 0).eng == .wt || (i2.req 0).eng == .wi) } }
theorem it3 : Step 2 i2 .other .tau i3 :=
  Step.goWrite i2 0 false (i2.valid) (by gd) (by gd) (by gd) (by gd) (by gd)
@[simp] def i4 : St Nat := { i3 with
          core := upd2 i3.core 0 0 ((i3.req 0).data 0 0)
          req := upd i3.req 0
            { i3.req 0 with toCore := upd2 (i3.req 0).toCore 0 0 false } }
theorem it4 : Step 2 i3 .other .tau i4 :=
  Step.wCore i3 0 0 0 (by gd) (by gd)
@[simp] def i5 : St Nat := { i4 with valid := (fun k t => i4.valid k t && !(k == 0 && t == 0)), dirty := (fun k t => i4.dirty k t && !(k == 0 && t == 0)), req := upd i4.req 0 (i4.req 0).done }
theorem it5 : Step 2 i4 (.purge 0) (.errW 0) i5 :=
  Step.errWr i4 0 (fun k t => i4.valid k t && !(k == 0 && t == 0)) (fun k t => i4.dirty k t && !(k == 0 && t == 0)) (by gd) (by gd) (by gd) (by gp) (by gp)
@[simp] def i6 : St Nat := (i5.setReq 2 (Req.fresh ({ idle with on := fun c => c == 0, has := (fun c t => (c == 0 && t == 0)), data := fun _ _ => 0 }) (.pt) .look false))
theorem it6 : Step 2 i5 .other (.invR 2 ({ idle with on := fun c => c == 0, has := (fun c t => (c == 0 && t == 0)), data := fun _ _ => 0 }).has) i6 :=
  Step.invR i5 2 ({ idle with on := fun c => c == 0, has := (fun c t => (c == 0 && t == 0)), data := fun _ _ => 0 }) (.pt) false (by gd) (by gd) (by gd) (by gd) (by gd)
@[simp] def i7 : St Nat := (i6.setReq 2 { i6.req 2 with ent := upd (i6.req 2).ent 0 (.line 0) })
theorem it7 : Step 2 i6 .other .tau i7 :=
  Step.look i6 2 0 0 (by gd) (by gd) (by gd) (by gd)
@[simp] def i8 : St Nat := (i7.setReq 2 { i7.req 2 with held := upd (i7.req 2).held 0 true })
theorem it8 : Step 2 i7 .other .tau i8 :=
  Step.grab i7 2 0 0 (by gd) (by gd) (by gd) (by gd)
@[simp] def i9 : St Nat := (i8.setReq 2 { i8.req 2 with pc := .oread })
theorem it9 : Step 2 i8 .other .tau i9 :=
  Step.goCore i8 2 (by gd) (by gd) (by gd) (by gd)
@[simp] def i10 : St Nat := (i9.setReq 2 { i9.req 2 with res := upd2 (i9.req 2).res 0 0 (some (i9.core 0 0)) })
theorem it10 : Step 2 i9 .other .tau i10 :=
  Step.rdCore i9 2 0 0 (by gd) (by gd)
@[simp] def i11 : St Nat := (i10.setReq 2 (i10.req 2).done)
theorem it11 : Step 2 i10 .other (.retR 2 (i10.req 2).res) i11 :=
  Step.ret i10 2 (by gd) (by gd)

/-- `reads_permitted_partial` applied to a write-through write which fails after it reached
the core, and a read of the sector. -/
example : ∃ m, Run 2 (fun s a e => NoStaleWriteback s a ∧ NoLostDrop s a ∧ e ≠ .crash) i10 m ∧
    m.Permits (obs (.retR 2 (i10.req 2).res)) := by
  have r1 := (Run.init init0 : Run 2 (fun s a (e : Ev Nat) => NoStaleWriteback s a ∧ NoLostDrop s a ∧ e ≠ .crash) i0 m0).step it1
    ⟨(by nofun), (by nofun), (by nofun)⟩ (.callW _ _ _)
  have r2 := r1.step it2
    ⟨(by nofun), (by nofun), (by nofun)⟩ (.nothing)
  have r3 := r2.step it3
    ⟨(by nofun), (by nofun), (by nofun)⟩ (.nothing)
  have r4 := r3.step it4
    ⟨(by nofun), (by nofun), (by nofun)⟩ (.nothing)
  have r5 := r4.step it5
    ⟨(by nofun), (by rintro _ ⟨⟩; gd), (by nofun)⟩ (.errW _)
  have r6 := r5.step it6
    ⟨(by nofun), (by nofun), (by nofun)⟩ (.callR _ _)
  have r7 := r6.step it7
    ⟨(by nofun), (by nofun), (by nofun)⟩ (.nothing)
  have r8 := r7.step it8
    ⟨(by nofun), (by nofun), (by nofun)⟩ (.nothing)
  have r9 := r8.step it9
    ⟨(by nofun), (by nofun), (by nofun)⟩ (.nothing)
  have r10 := r9.step it10
    ⟨(by nofun), (by nofun), (by nofun)⟩ (.nothing)
  exact ⟨_, r10, reads_permitted_partial r10 it11 (by nofun) (by nofun) (by nofun)⟩

end Verif.Engine.CrashRace
