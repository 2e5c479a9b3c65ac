import Verif.Lemma.EngineTrace
import Verif.Props.EngineCrash

/-!
# Executions with discards

Lines have two sectors; only core line 0 and the cache lines 0 and 1 are used, and
everything is zero at first.

An acknowledged write lost by a power failure, because of a discard of another sector:
* Write 0 (write-back, 1 into sector 0) maps cache line 0, makes sector 0 dirty, flushes
  the metadata and is acknowledged.
* Discard 1 of sector 0 purges cache line 0, which leaves the mapping; the flush of its
  metadata does not reach the cache device yet.
* Write 2 (write-back, 3 into sector 1) maps cache line 1, makes sector 1 dirty,
  flushes the metadata and is acknowledged.
* The power fails.  The cache device records both lines as dirty lines of core line 0,
  and the restart maps both (`ocf_mngt_cache.c:558-639`).
* Read 3 of sector 1 finds cache line 0, where sector 1 is not valid, and returns the
  0 of the core.
-/

namespace Verif.Engine.DiscardRace
open Verif.EngineSpec Verif.Engine

@[simp] abbrev k0 := a0
@[simp] def k1 : St Nat := (k0.setReq 0 (Req.fresh ({ idle with on := fun c => c == 0, has := (fun c t => (c == 0 && t == 0)), data := fun _ _ => 1 }) (.wb) .look true))
theorem kt1 : Step 2 k0 .other (.invW 0 ({ idle with on := fun c => c == 0, has := (fun c t => (c == 0 && t == 0)), data := fun _ _ => 1 }).has ({ idle with on := fun c => c == 0, has := (fun c t => (c == 0 && t == 0)), data := fun _ _ => 1 }).data) k1 :=
  Step.invW k0 0 ({ idle with on := fun c => c == 0, has := (fun c t => (c == 0 && t == 0)), data := fun _ _ => 1 }) (.wb) (by gd) (by gd) (by gd) (by gd) (by gd)
@[simp] def k2 : St Nat := { k1 with
          map := upd k1.map 0 (some 0)
          valid := fun k t => if k = 0 then false else k1.valid k t
          req := upd k1.req 0
            { k1.req 0 with
              ent := upd (k1.req 0).ent 0 (.line 0)
              held := upd (k1.req 0).held 0 true } }
theorem kt2 : Step 2 k1 (.remap 0 0) .tau k2 :=
  Step.remap k1 0 0 0 (by gd) (by gd) (by gd) (by gd) (by gd) (by gd) (by gd) (by gd)
@[simp] def k3 : St Nat := { k2 with
          valid := (k2.valid)
          req := upd k2.req 0
            { k2.req 0 with
              pc := .xfer
              toCache := fun c t => (k2.req 0).has c t &&
                ((k2.req 0).eng == .wt || (k2.req 0).eng == .wb)
              toCore := fun c t => (k2.req 0).has c t &&
                ((k2.req 0).eng == .wt || (k2.req 0).eng == .wi) } }
theorem kt3 : Step 2 k2 .other .tau k3 :=
  Step.goWrite k2 0 false (k2.valid) (by gd) (by gd) (by gd) (by gd) (by gd)
@[simp] def k4 : St Nat := { k3 with
          cache := upd2 k3.cache 0 0 ((k3.req 0).data 0 0)
          req := upd k3.req 0
            { k3.req 0 with toCache := upd2 (k3.req 0).toCache 0 0 false } }
theorem kt4 : Step 2 k3 .other .tau k4 :=
  Step.wCache k3 0 0 0 0 (by gd) (by gd) (by gd)
@[simp] def k5 : St Nat := { k4 with
          valid := fun k t => if k = 0 ∧ (k4.req 0).has 0 t = true then
            ((k4.req 0).eng == .wt || (k4.req 0).eng == .wb) else k4.valid k t
          dirty := fun k t => if k = 0 ∧ (k4.req 0).has 0 t = true then
            ((k4.req 0).eng == .wb) else k4.dirty k t
          req := upd k4.req 0
            { k4.req 0 with
              updd := upd (k4.req 0).updd 0 true
              need := upd (k4.req 0).need 0 true } }
theorem kt5 : Step 2 k4 .other .tau k5 :=
  Step.update k4 0 0 0 true (by gd) (by gd) (by gd) (by gd) (by gd) (by gd)
@[simp] def k6 : St Nat := { k5 with
          dmap := upd k5.dmap 0 (k5.map 0)
          ddirty := upd k5.ddirty 0 (k5.dirty 0)
          req := upd k5.req 0 { k5.req 0 with need := upd (k5.req 0).need 0 false } }
theorem kt6 : Step 2 k5 .other .tau k6 :=
  Step.flush k5 0 0 0 (by gd) (by gd)
@[simp] def k7 : St Nat := (k6.setReq 0 (k6.req 0).done)
theorem kt7 : Step 2 k6 .other (.ackW 0) k7 :=
  Step.ack k6 0 (by gd) (by gd) (by gd) (by gd) (by gd) (by gd)
@[simp] def k8 : St Nat := (k7.setReq 1 (Req.fresh ({ idle with on := fun c => c == 0, has := (fun c t => (c == 0 && t == 0)), disc := true }) .wi2 .look true))
theorem kt8 : Step 2 k7 .other (.invD 1 ({ idle with on := fun c => c == 0, has := (fun c t => (c == 0 && t == 0)), disc := true }).has) k8 :=
  Step.invD k7 1 ({ idle with on := fun c => c == 0, has := (fun c t => (c == 0 && t == 0)), disc := true }) (by gd) (by gd) (by gd) (by gd)
@[simp] def k9 : St Nat := (k8.setReq 1 { k8.req 1 with ent := upd (k8.req 1).ent 0 (.line 0) })
theorem kt9 : Step 2 k8 .other .tau k9 :=
  Step.look k8 1 0 0 (by gd) (by gd) (by gd) (by gd)
@[simp] def k10 : St Nat := (k9.setReq 1 { k9.req 1 with held := upd (k9.req 1).held 0 true })
theorem kt10 : Step 2 k9 .other .tau k10 :=
  Step.grab k9 1 0 0 (by gd) (by gd) (by gd) (by gd)
@[simp] def k11 : St Nat := { k10 with
          valid := (k10.valid)
          req := upd k10.req 1
            { k10.req 1 with
              pc := .xfer
              toCache := fun c t => (k10.req 1).has c t &&
                ((k10.req 1).eng == .wt || (k10.req 1).eng == .wb)
              toCore := fun c t => (k10.req 1).has c t &&
                ((k10.req 1).eng == .wt || (k10.req 1).eng == .wi) } }
theorem kt11 : Step 2 k10 .other .tau k11 :=
  Step.goWrite k10 1 false (k10.valid) (by gd) (by gd) (by gd) (by gd) (by gd)
@[simp] def k12 : St Nat := { k11 with
          valid := fun k t => if k = 0 ∧ (k11.req 1).has 0 t = true then
            ((k11.req 1).eng == .wt || (k11.req 1).eng == .wb) else k11.valid k t
          dirty := fun k t => if k = 0 ∧ (k11.req 1).has 0 t = true then
            ((k11.req 1).eng == .wb) else k11.dirty k t
          req := upd k11.req 1
            { k11.req 1 with
              updd := upd (k11.req 1).updd 0 true
              need := upd (k11.req 1).need 0 true } }
theorem kt12 : Step 2 k11 .other .tau k12 :=
  Step.update k11 1 0 0 true (by gd) (by gd) (by gd) (by gd) (by gd) (by gd)
@[simp] def k13 : St Nat := { k12 with
          map := upd k12.map 0 none
          req := upd k12.req 1 { k12.req 1 with gone := upd (k12.req 1).gone 0 true } }
theorem kt13 : Step 2 k12 .other .tau k13 :=
  Step.unmap k12 1 0 0 (by gd) (by gd) (by gd) (by gd) (by gd) (by gd) (by gd)
@[simp] def k14 : St Nat := (k13.setReq 2 (Req.fresh ({ idle with on := fun c => c == 0, has := (fun c t => (c == 0 && t == 1)), data := fun _ _ => 3 }) (.wb) .look true))
theorem kt14 : Step 2 k13 .other (.invW 2 ({ idle with on := fun c => c == 0, has := (fun c t => (c == 0 && t == 1)), data := fun _ _ => 3 }).has ({ idle with on := fun c => c == 0, has := (fun c t => (c == 0 && t == 1)), data := fun _ _ => 3 }).data) k14 :=
  Step.invW k13 2 ({ idle with on := fun c => c == 0, has := (fun c t => (c == 0 && t == 1)), data := fun _ _ => 3 }) (.wb) (by gd) (by gd) (by gd) (by gd) (by gd)
@[simp] def k15 : St Nat := { k14 with
          map := upd k14.map 1 (some 0)
          valid := fun k t => if k = 1 then false else k14.valid k t
          req := upd k14.req 2
            { k14.req 2 with
              ent := upd (k14.req 2).ent 0 (.line 1)
              held := upd (k14.req 2).held 0 true } }
theorem kt15 : Step 2 k14 (.remap 0 1) .tau k15 :=
  Step.remap k14 2 0 1 (by gd) (by gd) (by gd) (by gd) (by gd) (by gd) (by gd) (by gd)
@[simp] def k16 : St Nat := { k15 with
          valid := (k15.valid)
          req := upd k15.req 2
            { k15.req 2 with
              pc := .xfer
              toCache := fun c t => (k15.req 2).has c t &&
                ((k15.req 2).eng == .wt || (k15.req 2).eng == .wb)
              toCore := fun c t => (k15.req 2).has c t &&
                ((k15.req 2).eng == .wt || (k15.req 2).eng == .wi) } }
theorem kt16 : Step 2 k15 .other .tau k16 :=
  Step.goWrite k15 2 false (k15.valid) (by gd) (by gd) (by gd) (by gd) (by gd)
@[simp] def k17 : St Nat := { k16 with
          cache := upd2 k16.cache 1 1 ((k16.req 2).data 0 1)
          req := upd k16.req 2
            { k16.req 2 with toCache := upd2 (k16.req 2).toCache 0 1 false } }
theorem kt17 : Step 2 k16 .other .tau k17 :=
  Step.wCache k16 2 0 1 1 (by gd) (by gd) (by gd)
@[simp] def k18 : St Nat := { k17 with
          valid := fun k t => if k = 1 ∧ (k17.req 2).has 0 t = true then
            ((k17.req 2).eng == .wt || (k17.req 2).eng == .wb) else k17.valid k t
          dirty := fun k t => if k = 1 ∧ (k17.req 2).has 0 t = true then
            ((k17.req 2).eng == .wb) else k17.dirty k t
          req := upd k17.req 2
            { k17.req 2 with
              updd := upd (k17.req 2).updd 0 true
              need := upd (k17.req 2).need 0 true } }
theorem kt18 : Step 2 k17 .other .tau k18 :=
  Step.update k17 2 0 1 true (by gd) (by gd) (by gd) (by gd) (by gd) (by gd)
@[simp] def k19 : St Nat := { k18 with
          dmap := upd k18.dmap 1 (k18.map 1)
          ddirty := upd k18.ddirty 1 (k18.dirty 1)
          req := upd k18.req 2 { k18.req 2 with need := upd (k18.req 2).need 0 false } }
theorem kt19 : Step 2 k18 .other .tau k19 :=
  Step.flush k18 2 0 1 (by gd) (by gd)
@[simp] def k20 : St Nat := (k19.setReq 2 (k19.req 2).done)
theorem kt20 : Step 2 k19 .other (.ackW 2) k20 :=
  Step.ack k19 2 (by gd) (by gd) (by gd) (by gd) (by gd) (by gd)
@[simp] def k21 : St Nat := { k20 with
          map := (fun l => if l = 0 ∨ l = 1 then some 0 else none), valid := k20.ddirty, dirty := k20.ddirty
          req := fun i => (k20.req i).done }
theorem kt21 : Step 2 k20 .other .crash k21 :=
  Step.crash k20 (fun l => if l = 0 ∨ l = 1 then some 0 else none) (by gd) (by gd)
@[simp] def k22 : St Nat := (k21.setReq 3 (Req.fresh ({ idle with on := fun c => c == 0, has := (fun c t => (c == 0 && t == 1)), data := fun _ _ => 0 }) (.wo) .look false))
theorem kt22 : Step 2 k21 .other (.invR 3 ({ idle with on := fun c => c == 0, has := (fun c t => (c == 0 && t == 1)), data := fun _ _ => 0 }).has) k22 :=
  Step.invR k21 3 ({ idle with on := fun c => c == 0, has := (fun c t => (c == 0 && t == 1)), data := fun _ _ => 0 }) (.wo) false (by gd) (by gd) (by gd) (by gd) (by gd)
@[simp] def k23 : St Nat := (k22.setReq 3 { k22.req 3 with ent := upd (k22.req 3).ent 0 (.line 0) })
theorem kt23 : Step 2 k22 .other .tau k23 :=
  Step.look k22 3 0 0 (by gd) (by gd) (by gd) (by gd)
@[simp] def k24 : St Nat := (k23.setReq 3 { k23.req 3 with held := upd (k23.req 3).held 0 true })
theorem kt24 : Step 2 k23 .other .tau k24 :=
  Step.grab k23 3 0 0 (by gd) (by gd) (by gd) (by gd)
@[simp] def k25 : St Nat := (k24.setReq 3 { k24.req 3 with pc := .oread, dany := true })
theorem kt25 : Step 2 k24 .other .tau k25 :=
  Step.goCoreWo k24 3 true (by gd) (by gd) (by gd) (by gd)
@[simp] def k26 : St Nat := (k25.setReq 3 { k25.req 3 with res := upd2 (k25.req 3).res 0 1 (some (k25.core 0 1)) })
theorem kt26 : Step 2 k25 .other .tau k26 :=
  Step.rdCore k25 3 0 1 (by gd) (by gd)
@[simp] def k27 : St Nat := (k26.setReq 3 { k26.req 3 with pc := .over, toCache := (fun _ _ => false) })
theorem kt27 : Step 2 k26 .other .tau k27 :=
  Step.goOver k26 3 (fun _ _ => false) (by gd) (by gd) (by gd) (by gd) (by gd)
@[simp] def k28 : St Nat := (k27.setReq 3 (k27.req 3).done)
theorem kt28 : Step 2 k27 .other (.retR 3 (k27.req 3).res) k28 :=
  Step.ret k27 3 (by gd) (by gd)
theorem knw0 : NoWi k0 := by unfold NoWi; gd
theorem knw1 : NoWi k1 := by unfold NoWi; gd
theorem knw2 : NoWi k2 := by unfold NoWi; gd
theorem knw3 : NoWi k3 := by unfold NoWi; gd
theorem knw4 : NoWi k4 := by unfold NoWi; gd
theorem knw5 : NoWi k5 := by unfold NoWi; gd
theorem knw6 : NoWi k6 := by unfold NoWi; gd
theorem knw7 : NoWi k7 := by unfold NoWi; gd
theorem knw8 : NoWi k8 := by unfold NoWi; gd
theorem knw9 : NoWi k9 := by unfold NoWi; gd
theorem knw10 : NoWi k10 := by unfold NoWi; gd
theorem knw11 : NoWi k11 := by unfold NoWi; gd
theorem knw12 : NoWi k12 := by unfold NoWi; gd
theorem knw13 : NoWi k13 := by unfold NoWi; gd
theorem knw14 : NoWi k14 := by unfold NoWi; gd
theorem knw15 : NoWi k15 := by unfold NoWi; gd
theorem knw16 : NoWi k16 := by unfold NoWi; gd
theorem knw17 : NoWi k17 := by unfold NoWi; gd
theorem knw18 : NoWi k18 := by unfold NoWi; gd
theorem knw19 : NoWi k19 := by unfold NoWi; gd
theorem knw20 : NoWi k20 := by unfold NoWi; gd
theorem knw21 : NoWi k21 := by unfold NoWi; gd
theorem knw22 : NoWi k22 := by unfold NoWi; gd
theorem knw23 : NoWi k23 := by unfold NoWi; gd
theorem knw24 : NoWi k24 := by unfold NoWi; gd
theorem knw25 : NoWi k25 := by unfold NoWi; gd
theorem knw26 : NoWi k26 := by unfold NoWi; gd
theorem knw27 : NoWi k27 := by unfold NoWi; gd

theorem runK : ∃ m, Run 2 (fun s a _ => NoWi s ∧ NoStaleWriteback s a ∧ NoDirtyDrop s a ∧ NoFlushError s a) k27 m ∧
    ¬ m.Permits (obs (.retR 3 (k27.req 3).res)) := by
  have r1 := (Run.init init0 : Run 2 (fun s a (_ : Ev Nat) => NoWi s ∧ NoStaleWriteback s a ∧ NoDirtyDrop s a ∧ NoFlushError s a) k0 m0).step kt1
    ⟨knw0, (by nofun), (by nofun), (by nofun)⟩ (.callW _ _ _)
  have r2 := r1.step kt2
    ⟨knw1, (by nofun), (by nofun), (by nofun)⟩ (.nothing)
  have r3 := r2.step kt3
    ⟨knw2, (by nofun), (by nofun), (by nofun)⟩ (.nothing)
  have r4 := r3.step kt4
    ⟨knw3, (by nofun), (by nofun), (by nofun)⟩ (.nothing)
  have r5 := r4.step kt5
    ⟨knw4, (by nofun), (by nofun), (by nofun)⟩ (.nothing)
  have r6 := r5.step kt6
    ⟨knw5, (by nofun), (by nofun), (by nofun)⟩ (.nothing)
  have r7 := r6.step kt7
    ⟨knw6, (by nofun), (by nofun), (by nofun)⟩ (.ackW _)
  have r8 := r7.step kt8
    ⟨knw7, (by nofun), (by nofun), (by nofun)⟩ (.callD _ _)
  have r9 := r8.step kt9
    ⟨knw8, (by nofun), (by nofun), (by nofun)⟩ (.nothing)
  have r10 := r9.step kt10
    ⟨knw9, (by nofun), (by nofun), (by nofun)⟩ (.nothing)
  have r11 := r10.step kt11
    ⟨knw10, (by nofun), (by nofun), (by nofun)⟩ (.nothing)
  have r12 := r11.step kt12
    ⟨knw11, (by nofun), (by nofun), (by nofun)⟩ (.nothing)
  have r13 := r12.step kt13
    ⟨knw12, (by nofun), (by nofun), (by nofun)⟩ (.nothing)
  have r14 := r13.step kt14
    ⟨knw13, (by nofun), (by nofun), (by nofun)⟩ (.callW _ _ _)
  have r15 := r14.step kt15
    ⟨knw14, (by nofun), (by nofun), (by nofun)⟩ (.nothing)
  have r16 := r15.step kt16
    ⟨knw15, (by nofun), (by nofun), (by nofun)⟩ (.nothing)
  have r17 := r16.step kt17
    ⟨knw16, (by nofun), (by nofun), (by nofun)⟩ (.nothing)
  have r18 := r17.step kt18
    ⟨knw17, (by nofun), (by nofun), (by nofun)⟩ (.nothing)
  have r19 := r18.step kt19
    ⟨knw18, (by nofun), (by nofun), (by nofun)⟩ (.nothing)
  have r20 := r19.step kt20
    ⟨knw19, (by nofun), (by nofun), (by nofun)⟩ (.ackW _)
  have r21 := r20.step kt21
    ⟨knw20, (by nofun), (by nofun), (by nofun)⟩ (.crash)
  have r22 := r21.step kt22
    ⟨knw21, (by nofun), (by nofun), (by nofun)⟩ (.callR _ _)
  have r23 := r22.step kt23
    ⟨knw22, (by nofun), (by nofun), (by nofun)⟩ (.nothing)
  have r24 := r23.step kt24
    ⟨knw23, (by nofun), (by nofun), (by nofun)⟩ (.nothing)
  have r25 := r24.step kt25
    ⟨knw24, (by nofun), (by nofun), (by nofun)⟩ (.nothing)
  have r26 := r25.step kt26
    ⟨knw25, (by nofun), (by nofun), (by nofun)⟩ (.nothing)
  have r27 := r26.step kt27
    ⟨knw26, (by nofun), (by nofun), (by nofun)⟩ (.nothing)
  refine ⟨_, r27, fun h => ?_⟩
  obtain ⟨v, h1, h2⟩ := h 0 1 (by simp)
  have h3 : (k27.req 3).res 0 1 = some 0 := rfl
  rw [h3] at h1
  cases h1
  simp [Mon.busy] at h2
  try (obtain ⟨k, hk⟩ := h2; by_cases q0 : k = 0 <;> by_cases q1 : k = 1 <;> simp [q0, q1] at hk)

/-- C02 fails with discards: an execution without write-invalidate writes, without
cleaners and without errors, in which the only write to a sector was acknowledged before
the power failed, and a read after the restart returns the value before that write. -/
theorem discard_loses_acknowledged_write :
    ∃ (s s' : St Nat) (m : Mon Nat) (e : Ev Nat), Run 2 (fun s a _ => NoWi s ∧ NoStaleWriteback s a ∧ NoDirtyDrop s a ∧ NoFlushError s a) s m ∧
      Step 2 s .other e s' ∧ ¬ m.Permits (obs e) := by
  obtain ⟨m, h1, h2⟩ := runK
  exact ⟨_, _, _, _, h1, kt28, h2⟩

@[simp] abbrev o0 := a0
@[simp] def o1 : St Nat := (o0.setReq 0 (Req.fresh ({ idle with on := fun c => c == 0, has := (fun c t => (c == 0 && t == 0)), data := fun _ _ => 1 }) (.wb) .look true))
theorem ot1 : Step 2 o0 .other (.invW 0 ({ idle with on := fun c => c == 0, has := (fun c t => (c == 0 && t == 0)), data := fun _ _ => 1 }).has ({ idle with on := fun c => c == 0, has := (fun c t => (c == 0 && t == 0)), data := fun _ _ => 1 }).data) o1 :=
  Step.invW o0 0 ({ idle with on := fun c => c == 0, has := (fun c t => (c == 0 && t == 0)), data := fun _ _ => 1 }) (.wb) (by gd) (by gd) (by gd) (by gd) (by gd)
@[simp] def o2 : St Nat := { o1 with
          map := upd o1.map 0 (some 0)
          valid := fun k t => if k = 0 then false else o1.valid k t
          req := upd o1.req 0
            { o1.req 0 with
              ent := upd (o1.req 0).ent 0 (.line 0)
              held := upd (o1.req 0).held 0 true } }
theorem ot2 : Step 2 o1 (.remap 0 0) .tau o2 :=
  Step.remap o1 0 0 0 (by gd) (by gd) (by gd) (by gd) (by gd) (by gd) (by gd) (by gd)
@[simp] def o3 : St Nat := { o2 with
          valid := (o2.valid)
          req := upd o2.req 0
            { o2.req 0 with
              pc := .xfer
              toCache := fun c t => (o2.req 0).has c t &&
                ((o2.req 0).eng == .wt || (o2.req 0).eng == .wb)
              toCore := fun c t => (o2.req 0).has c t &&
                ((o2.req 0).eng == .wt || (o2.req 0).eng == .wi) } }
theorem ot3 : Step 2 o2 .other .tau o3 :=
  Step.goWrite o2 0 false (o2.valid) (by gd) (by gd) (by gd) (by gd) (by gd)
@[simp] def o4 : St Nat := { o3 with
          cache := upd2 o3.cache 0 0 ((o3.req 0).data 0 0)
          req := upd o3.req 0
            { o3.req 0 with toCache := upd2 (o3.req 0).toCache 0 0 false } }
theorem ot4 : Step 2 o3 .other .tau o4 :=
  Step.wCache o3 0 0 0 0 (by gd) (by gd) (by gd)
@[simp] def o5 : St Nat := { o4 with
          valid := fun k t => if k = 0 ∧ (o4.req 0).has 0 t = true then
            ((o4.req 0).eng == .wt || (o4.req 0).eng == .wb) else o4.valid k t
          dirty := fun k t => if k = 0 ∧ (o4.req 0).has 0 t = true then
            ((o4.req 0).eng == .wb) else o4.dirty k t
          req := upd o4.req 0
            { o4.req 0 with
              updd := upd (o4.req 0).updd 0 true
              need := upd (o4.req 0).need 0 true } }
theorem ot5 : Step 2 o4 .other .tau o5 :=
  Step.update o4 0 0 0 true (by gd) (by gd) (by gd) (by gd) (by gd) (by gd)
@[simp] def o6 : St Nat := { o5 with
          dmap := upd o5.dmap 0 (o5.map 0)
          ddirty := upd o5.ddirty 0 (o5.dirty 0)
          req := upd o5.req 0 { o5.req 0 with need := upd (o5.req 0).need 0 false } }
theorem ot6 : Step 2 o5 .other .tau o6 :=
  Step.flush o5 0 0 0 (by gd) (by gd)
@[simp] def o7 : St Nat := (o6.setReq 0 (o6.req 0).done)
theorem ot7 : Step 2 o6 .other (.ackW 0) o7 :=
  Step.ack o6 0 (by gd) (by gd) (by gd) (by gd) (by gd) (by gd)
@[simp] def o8 : St Nat := (o7.setReq 1 (Req.fresh ({ idle with on := fun c => c == 0, has := (fun c t => (c == 0 && t == 0)), disc := true }) .wi2 .look true))
theorem ot8 : Step 2 o7 .other (.invD 1 ({ idle with on := fun c => c == 0, has := (fun c t => (c == 0 && t == 0)), disc := true }).has) o8 :=
  Step.invD o7 1 ({ idle with on := fun c => c == 0, has := (fun c t => (c == 0 && t == 0)), disc := true }) (by gd) (by gd) (by gd) (by gd)
@[simp] def o9 : St Nat := (o8.setReq 1 { o8.req 1 with ent := upd (o8.req 1).ent 0 (.line 0) })
theorem ot9 : Step 2 o8 .other .tau o9 :=
  Step.look o8 1 0 0 (by gd) (by gd) (by gd) (by gd)
@[simp] def o10 : St Nat := (o9.setReq 1 { o9.req 1 with held := upd (o9.req 1).held 0 true })
theorem ot10 : Step 2 o9 .other .tau o10 :=
  Step.grab o9 1 0 0 (by gd) (by gd) (by gd) (by gd)
@[simp] def o11 : St Nat := { o10 with
          valid := (o10.valid)
          req := upd o10.req 1
            { o10.req 1 with
              pc := .xfer
              toCache := fun c t => (o10.req 1).has c t &&
                ((o10.req 1).eng == .wt || (o10.req 1).eng == .wb)
              toCore := fun c t => (o10.req 1).has c t &&
                ((o10.req 1).eng == .wt || (o10.req 1).eng == .wi) } }
theorem ot11 : Step 2 o10 .other .tau o11 :=
  Step.goWrite o10 1 false (o10.valid) (by gd) (by gd) (by gd) (by gd) (by gd)
@[simp] def o12 : St Nat := { o11 with
          valid := fun k t => if k = 0 ∧ (o11.req 1).has 0 t = true then
            ((o11.req 1).eng == .wt || (o11.req 1).eng == .wb) else o11.valid k t
          dirty := fun k t => if k = 0 ∧ (o11.req 1).has 0 t = true then
            ((o11.req 1).eng == .wb) else o11.dirty k t
          req := upd o11.req 1
            { o11.req 1 with
              updd := upd (o11.req 1).updd 0 true
              need := upd (o11.req 1).need 0 true } }
theorem ot12 : Step 2 o11 .other .tau o12 :=
  Step.update o11 1 0 0 true (by gd) (by gd) (by gd) (by gd) (by gd) (by gd)
@[simp] def o13 : St Nat := { o12 with
          map := upd o12.map 0 none
          req := upd o12.req 1 { o12.req 1 with gone := upd (o12.req 1).gone 0 true } }
theorem ot13 : Step 2 o12 .other .tau o13 :=
  Step.unmap o12 1 0 0 (by gd) (by gd) (by gd) (by gd) (by gd) (by gd) (by gd)
@[simp] def o14 : St Nat := { o13 with
          dmap := upd o13.dmap 0 (o13.map 0)
          ddirty := upd o13.ddirty 0 (o13.dirty 0)
          req := upd o13.req 1 { o13.req 1 with need := upd (o13.req 1).need 0 false } }
theorem ot14 : Step 2 o13 .other .tau o14 :=
  Step.flush o13 1 0 0 (by gd) (by gd)
@[simp] def o15 : St Nat := (o14.setReq 1 { (o14.req 1).fresh .wi2 .look true with dany := true })
theorem ot15 : Step 2 o14 (.quit 1) .tau o15 :=
  Step.dnext o14 1 (by gd) (by gd) (by gd)
@[simp] def o16 : St Nat := { o15 with core := upd2 o15.core 0 0 9 }
theorem ot16 : Step 2 o15 .other .tau o16 :=
  Step.dcore o15 1 0 0 9 (by gd) (by gd) (by gd) (by gd) (by gd)
@[simp] def o17 : St Nat := (o16.setReq 1 (o16.req 1).done)
theorem ot17 : Step 2 o16 .other (.ackW 1) o17 :=
  Step.ackD o16 1 (by gd) (by gd) (by gd) (by gd)
@[simp] def o18 : St Nat := (o17.setReq 3 (Req.fresh ({ idle with on := fun c => c == 0, has := (fun c t => (c == 0 && t == 0)), data := fun _ _ => 0 }) (.pt) .look false))
theorem ot18 : Step 2 o17 .other (.invR 3 ({ idle with on := fun c => c == 0, has := (fun c t => (c == 0 && t == 0)), data := fun _ _ => 0 }).has) o18 :=
  Step.invR o17 3 ({ idle with on := fun c => c == 0, has := (fun c t => (c == 0 && t == 0)), data := fun _ _ => 0 }) (.pt) false (by gd) (by gd) (by gd) (by gd) (by gd)
@[simp] def o19 : St Nat := (o18.setReq 3 { o18.req 3 with ent := upd (o18.req 3).ent 0 .none })
theorem ot19 : Step 2 o18 (.miss 3 0) .tau o19 :=
  Step.miss o18 3 0 (by gd) (by gd) (by gd) (by gd) (by gd)
@[simp] def o20 : St Nat := (o19.setReq 3 { o19.req 3 with pc := .oread })
theorem ot20 : Step 2 o19 .other .tau o20 :=
  Step.goCore o19 3 (by gd) (by gd) (by gd) (by gd)
@[simp] def o21 : St Nat := (o20.setReq 3 { o20.req 3 with res := upd2 (o20.req 3).res 0 0 (some (o20.core 0 0)) })
theorem ot21 : Step 2 o20 .other .tau o21 :=
  Step.rdCore o20 3 0 0 (by gd) (by gd)
@[simp] def o22 : St Nat := (o21.setReq 3 (o21.req 3).done)
theorem ot22 : Step 2 o21 .other (.retR 3 (o21.req 3).res) o22 :=
  Step.ret o21 3 (by gd) (by gd)
theorem onw0 : NoWi o0 := by unfold NoWi; gd
theorem onw1 : NoWi o1 := by unfold NoWi; gd
theorem onw2 : NoWi o2 := by unfold NoWi; gd
theorem onw3 : NoWi o3 := by unfold NoWi; gd
theorem onw4 : NoWi o4 := by unfold NoWi; gd
theorem onw5 : NoWi o5 := by unfold NoWi; gd
theorem onw6 : NoWi o6 := by unfold NoWi; gd
theorem onw7 : NoWi o7 := by unfold NoWi; gd
theorem onw8 : NoWi o8 := by unfold NoWi; gd
theorem onw9 : NoWi o9 := by unfold NoWi; gd
theorem onw10 : NoWi o10 := by unfold NoWi; gd
theorem onw11 : NoWi o11 := by unfold NoWi; gd
theorem onw12 : NoWi o12 := by unfold NoWi; gd
theorem onw13 : NoWi o13 := by unfold NoWi; gd
theorem onw14 : NoWi o14 := by unfold NoWi; gd
theorem onw15 : NoWi o15 := by unfold NoWi; gd
theorem onw16 : NoWi o16 := by unfold NoWi; gd
theorem onw17 : NoWi o17 := by unfold NoWi; gd
theorem onw18 : NoWi o18 := by unfold NoWi; gd
theorem onw19 : NoWi o19 := by unfold NoWi; gd
theorem onw20 : NoWi o20 := by unfold NoWi; gd
theorem onw21 : NoWi o21 := by unfold NoWi; gd

/-- `reads_permitted_no_wi` applied to a write-back write, a discard of the same sector
which leaves 9 in it, and a read returning that. -/
example : ∃ m, Run 2 (fun s a e => NoWi s ∧ NoLostDrop s a ∧ e ≠ .crash) o21 m ∧
    m.Permits (obs (.retR 3 (o21.req 3).res)) ∧ (o21.req 3).res 0 0 = some 9 := by
  have r1 := (Run.init init0 : Run 2 (fun s a (e : Ev Nat) => NoWi s ∧ NoLostDrop s a ∧ e ≠ .crash) o0 m0).step ot1
    ⟨onw0, (by nofun), (by nofun)⟩ (.callW _ _ _)
  have r2 := r1.step ot2
    ⟨onw1, (by nofun), (by nofun)⟩ (.nothing)
  have r3 := r2.step ot3
    ⟨onw2, (by nofun), (by nofun)⟩ (.nothing)
  have r4 := r3.step ot4
    ⟨onw3, (by nofun), (by nofun)⟩ (.nothing)
  have r5 := r4.step ot5
    ⟨onw4, (by nofun), (by nofun)⟩ (.nothing)
  have r6 := r5.step ot6
    ⟨onw5, (by nofun), (by nofun)⟩ (.nothing)
  have r7 := r6.step ot7
    ⟨onw6, (by nofun), (by nofun)⟩ (.ackW _)
  have r8 := r7.step ot8
    ⟨onw7, (by nofun), (by nofun)⟩ (.callD _ _)
  have r9 := r8.step ot9
    ⟨onw8, (by nofun), (by nofun)⟩ (.nothing)
  have r10 := r9.step ot10
    ⟨onw9, (by nofun), (by nofun)⟩ (.nothing)
  have r11 := r10.step ot11
    ⟨onw10, (by nofun), (by nofun)⟩ (.nothing)
  have r12 := r11.step ot12
    ⟨onw11, (by nofun), (by nofun)⟩ (.nothing)
  have r13 := r12.step ot13
    ⟨onw12, (by nofun), (by nofun)⟩ (.nothing)
  have r14 := r13.step ot14
    ⟨onw13, (by nofun), (by nofun)⟩ (.nothing)
  have r15 := r14.step ot15
    ⟨onw14, (by nofun), (by nofun)⟩ (.nothing)
  have r16 := r15.step ot16
    ⟨onw15, (by nofun), (by nofun)⟩ (.nothing)
  have r17 := r16.step ot17
    ⟨onw16, (by nofun), (by nofun)⟩ (.ackW _)
  have r18 := r17.step ot18
    ⟨onw17, (by nofun), (by nofun)⟩ (.callR _ _)
  have r19 := r18.step ot19
    ⟨onw18, (by nofun), (by nofun)⟩ (.nothing)
  have r20 := r19.step ot20
    ⟨onw19, (by nofun), (by nofun)⟩ (.nothing)
  have r21 := r20.step ot21
    ⟨onw20, (by nofun), (by nofun)⟩ (.nothing)
  exact ⟨_, r21, reads_permitted_no_wi r21 ot22 onw21 (by nofun) (by nofun), rfl⟩

/-- `reads_permitted_after_crashes_partial` applied to the same execution. -/
example : ∃ m, Run 2 (fun s a _ => Calm s a) o21 m ∧
    m.Permits (obs (.retR 3 (o21.req 3).res)) := by
  have r1 := (Run.init init0 : Run 2 (fun s a (_ : Ev Nat) => Calm s a) o0 m0).step ot1
    ⟨(by nofun), (by unfold NoUnflushedPurge; simp [St.setReq, idle, upd_apply, Req.fresh]), (by nofun), (by nofun)⟩ (.callW _ _ _)
  have r2 := r1.step ot2
    ⟨(by nofun), (by unfold NoUnflushedPurge; simp [St.setReq, idle, upd_apply, Req.fresh]), (by nofun), (by nofun)⟩ (.nothing)
  have r3 := r2.step ot3
    ⟨(by nofun), (by unfold NoUnflushedPurge; simp [St.setReq, idle, upd_apply, Req.fresh]), (by nofun), (by nofun)⟩ (.nothing)
  have r4 := r3.step ot4
    ⟨(by nofun), (by unfold NoUnflushedPurge; simp [St.setReq, idle, upd_apply, Req.fresh]), (by nofun), (by nofun)⟩ (.nothing)
  have r5 := r4.step ot5
    ⟨(by nofun), (by unfold NoUnflushedPurge; simp [St.setReq, idle, upd_apply, Req.fresh]), (by nofun), (by nofun)⟩ (.nothing)
  have r6 := r5.step ot6
    ⟨(by nofun), (by unfold NoUnflushedPurge; simp [St.setReq, idle, upd_apply, Req.fresh]), (by nofun), (by nofun)⟩ (.nothing)
  have r7 := r6.step ot7
    ⟨(by nofun), (by unfold NoUnflushedPurge; simp [St.setReq, idle, upd_apply, Req.fresh]), (by nofun), (by nofun)⟩ (.ackW _)
  have r8 := r7.step ot8
    ⟨(by nofun), (by unfold NoUnflushedPurge; simp [St.setReq, idle, upd_apply, Req.fresh]), (by nofun), (by nofun)⟩ (.callD _ _)
  have r9 := r8.step ot9
    ⟨(by nofun), (by unfold NoUnflushedPurge; simp [St.setReq, idle, upd_apply, Req.fresh]), (by nofun), (by nofun)⟩ (.nothing)
  have r10 := r9.step ot10
    ⟨(by nofun), (by unfold NoUnflushedPurge; simp [St.setReq, idle, upd_apply, Req.fresh]), (by nofun), (by nofun)⟩ (.nothing)
  have r11 := r10.step ot11
    ⟨(by nofun), (by unfold NoUnflushedPurge; simp [St.setReq, idle, upd_apply, Req.fresh]), (by nofun), (by nofun)⟩ (.nothing)
  have r12 := r11.step ot12
    ⟨(by nofun), (by unfold NoUnflushedPurge; simp [St.setReq, idle, upd_apply, Req.fresh]), (by nofun), (by nofun)⟩ (.nothing)
  have r13 := r12.step ot13
    ⟨(by nofun), (by unfold NoUnflushedPurge; simp [St.setReq, idle, upd_apply, Req.fresh]), (by nofun), (by nofun)⟩ (.nothing)
  have r14 := r13.step ot14
    ⟨(by nofun), (by unfold NoUnflushedPurge; simp [St.setReq, idle, upd_apply, Req.fresh]), (by nofun), (by nofun)⟩ (.nothing)
  have r15 := r14.step ot15
    ⟨(by nofun), (by unfold NoUnflushedPurge; simp [St.setReq, idle, upd_apply, Req.fresh]), (by nofun), (by rintro _ ⟨⟩; gd)⟩ (.nothing)
  have r16 := r15.step ot16
    ⟨(by nofun), (by unfold NoUnflushedPurge; simp [St.setReq, idle, upd_apply, Req.fresh]), (by nofun), (by nofun)⟩ (.nothing)
  have r17 := r16.step ot17
    ⟨(by nofun), (by unfold NoUnflushedPurge; simp [St.setReq, idle, upd_apply, Req.fresh]), (by nofun), (by nofun)⟩ (.ackW _)
  have r18 := r17.step ot18
    ⟨(by nofun), (by unfold NoUnflushedPurge; simp [St.setReq, idle, upd_apply, Req.fresh]), (by nofun), (by nofun)⟩ (.callR _ _)
  have r19 := r18.step ot19
    ⟨(by nofun), (by unfold NoUnflushedPurge; simp [St.setReq, idle, upd_apply, Req.fresh]), (by nofun), (by nofun)⟩ (.nothing)
  have r20 := r19.step ot20
    ⟨(by nofun), (by unfold NoUnflushedPurge; simp [St.setReq, idle, upd_apply, Req.fresh]), (by nofun), (by nofun)⟩ (.nothing)
  have r21 := r20.step ot21
    ⟨(by nofun), (by unfold NoUnflushedPurge; simp [St.setReq, idle, upd_apply, Req.fresh]), (by nofun), (by nofun)⟩ (.nothing)
  exact ⟨_, r21, reads_permitted_after_crashes_partial r21 ot22 ⟨(by nofun), (by unfold NoUnflushedPurge; simp [St.setReq, idle, upd_apply, Req.fresh]), (by nofun), (by nofun)⟩⟩

@[simp] abbrev p0 := a0
@[simp] def p1 : St Nat := (p0.setReq 1 (Req.fresh ({ idle with on := fun c => c == 0, has := (fun c t => (c == 0 && t == 0)), disc := true }) .wi2 .look true))
theorem pt1 : Step 2 p0 .other (.invD 1 ({ idle with on := fun c => c == 0, has := (fun c t => (c == 0 && t == 0)), disc := true }).has) p1 :=
  Step.invD p0 1 ({ idle with on := fun c => c == 0, has := (fun c t => (c == 0 && t == 0)), disc := true }) (by gd) (by gd) (by gd) (by gd)
@[simp] def p2 : St Nat := (p1.setReq 1 { p1.req 1 with ent := upd (p1.req 1).ent 0 .none })
theorem pt2 : Step 2 p1 (.miss 1 0) .tau p2 :=
  Step.miss p1 1 0 (by gd) (by gd) (by gd) (by gd) (by gd)
@[simp] def p3 : St Nat := { p2 with
          valid := (p2.valid)
          req := upd p2.req 1
            { p2.req 1 with
              pc := .xfer
              toCache := fun c t => (p2.req 1).has c t &&
                ((p2.req 1).eng == .wt || (p2.req 1).eng == .wb)
              toCore := fun c t => (p2.req 1).has c t &&
                ((p2.req 1).eng == .wt || (p2.req 1).eng == .wi) } }
theorem pt3 : Step 2 p2 .other .tau p3 :=
  Step.goWrite p2 1 false (p2.valid) (by gd) (by gd) (by gd) (by gd) (by gd)
@[simp] def p4 : St Nat := (p3.setReq 1 { (p3.req 1).fresh .wi2 .look true with dany := true })
theorem pt4 : Step 2 p3 (.quit 1) .tau p4 :=
  Step.dnext p3 1 (by gd) (by gd) (by gd)
@[simp] def p5 : St Nat := { p4 with core := upd2 p4.core 0 0 9 }
theorem pt5 : Step 2 p4 .other .tau p5 :=
  Step.dcore p4 1 0 0 9 (by gd) (by gd) (by gd) (by gd) (by gd)
@[simp] def p6 : St Nat := (p5.setReq 1 (p5.req 1).done)
theorem pt6 : Step 2 p5 .other (.ackW 1) p6 :=
  Step.ackD p5 1 (by gd) (by gd) (by gd) (by gd)
@[simp] def p7 : St Nat := (p6.setReq 0 (Req.fresh ({ idle with on := fun c => c == 0, has := (fun c t => (c == 0 && t == 0)), data := fun _ _ => 4 }) (.wt) .look true))
theorem pt7 : Step 2 p6 .other (.invW 0 ({ idle with on := fun c => c == 0, has := (fun c t => (c == 0 && t == 0)), data := fun _ _ => 4 }).has ({ idle with on := fun c => c == 0, has := (fun c t => (c == 0 && t == 0)), data := fun _ _ => 4 }).data) p7 :=
  Step.invW p6 0 ({ idle with on := fun c => c == 0, has := (fun c t => (c == 0 && t == 0)), data := fun _ _ => 4 }) (.wt) (by gd) (by gd) (by gd) (by gd) (by gd)
@[simp] def p8 : St Nat := { p7 with
          map := upd p7.map 0 (some 0)
          valid := fun k t => if k = 0 then false else p7.valid k t
          req := upd p7.req 0
            { p7.req 0 with
              ent := upd (p7.req 0).ent 0 (.line 0)
              held := upd (p7.req 0).held 0 true } }
theorem pt8 : Step 2 p7 (.remap 0 0) .tau p8 :=
  Step.remap p7 0 0 0 (by gd) (by gd) (by gd) (by gd) (by gd) (by gd) (by gd) (by gd)
@[simp] def p9 : St Nat := { p8 with
          valid := (p8.valid)
          req := upd p8.req 0
            { p8.req 0 with
              pc := .xfer
              toCache := fun c t => (p8.req 0).has c t &&
                ((p8.req 0).eng == .wt || (p8.req 0).eng == .wb)
              toCore := fun c t => (p8.req 0).has c t &&
                ((p8.req 0).eng == .wt || (p8.req 0).eng == .wi) } }
theorem pt9 : Step 2 p8 .other .tau p9 :=
  Step.goWrite p8 0 false (p8.valid) (by gd) (by gd) (by gd) (by gd) (by gd)
@[simp] def p10 : St Nat := { p9 with
          cache := upd2 p9.cache 0 0 ((p9.req 0).data 0 0)
          req := upd p9.req 0
            { p9.req 0 with toCache := upd2 (p9.req 0).toCache 0 0 false } }
theorem pt10 : Step 2 p9 .other .tau p10 :=
  Step.wCache p9 0 0 0 0 (by gd) (by gd) (by gd)
@[simp] def p11 : St Nat := { p10 with
          core := upd2 p10.core 0 0 ((p10.req 0).data 0 0)
          req := upd p10.req 0
            { p10.req 0 with toCore := upd2 (p10.req 0).toCore 0 0 false } }
theorem pt11 : Step 2 p10 .other .tau p11 :=
  Step.wCore p10 0 0 0 (by gd) (by gd)
@[simp] def p12 : St Nat := { p11 with
          valid := fun k t => if k = 0 ∧ (p11.req 0).has 0 t = true then
            ((p11.req 0).eng == .wt || (p11.req 0).eng == .wb) else p11.valid k t
          dirty := fun k t => if k = 0 ∧ (p11.req 0).has 0 t = true then
            ((p11.req 0).eng == .wb) else p11.dirty k t
          req := upd p11.req 0
            { p11.req 0 with
              updd := upd (p11.req 0).updd 0 true
              need := upd (p11.req 0).need 0 false } }
theorem pt12 : Step 2 p11 .other .tau p12 :=
  Step.update p11 0 0 0 false (by gd) (by gd) (by gd) (by gd) (by gd) (by gd)
@[simp] def p13 : St Nat := (p12.setReq 0 (p12.req 0).done)
theorem pt13 : Step 2 p12 .other (.ackW 0) p13 :=
  Step.ack p12 0 (by gd) (by gd) (by gd) (by gd) (by gd) (by gd)
@[simp] def p14 : St Nat := { p13 with
          map := (fun _ => none), valid := p13.ddirty, dirty := p13.ddirty
          req := fun i => (p13.req i).done }
theorem pt14 : Step 2 p13 .other .crash p14 :=
  Step.crash p13 (fun _ => none) (by gd) (by gd)
@[simp] def p15 : St Nat := (p14.setReq 3 (Req.fresh ({ idle with on := fun c => c == 0, has := (fun c t => (c == 0 && t == 0)), data := fun _ _ => 0 }) (.pt) .look false))
theorem pt15 : Step 2 p14 .other (.invR 3 ({ idle with on := fun c => c == 0, has := (fun c t => (c == 0 && t == 0)), data := fun _ _ => 0 }).has) p15 :=
  Step.invR p14 3 ({ idle with on := fun c => c == 0, has := (fun c t => (c == 0 && t == 0)), data := fun _ _ => 0 }) (.pt) false (by gd) (by gd) (by gd) (by gd) (by gd)
@[simp] def p16 : St Nat := (p15.setReq 3 { p15.req 3 with ent := upd (p15.req 3).ent 0 .none })
theorem pt16 : Step 2 p15 (.miss 3 0) .tau p16 :=
  Step.miss p15 3 0 (by gd) (by gd) (by gd) (by gd) (by gd)
@[simp] def p17 : St Nat := (p16.setReq 3 { p16.req 3 with pc := .oread })
theorem pt17 : Step 2 p16 .other .tau p17 :=
  Step.goCore p16 3 (by gd) (by gd) (by gd) (by gd)
@[simp] def p18 : St Nat := (p17.setReq 3 { p17.req 3 with res := upd2 (p17.req 3).res 0 0 (some (p17.core 0 0)) })
theorem pt18 : Step 2 p17 .other .tau p18 :=
  Step.rdCore p17 3 0 0 (by gd) (by gd)
@[simp] def p19 : St Nat := (p18.setReq 3 (p18.req 3).done)
theorem pt19 : Step 2 p18 .other (.retR 3 (p18.req 3).res) p19 :=
  Step.ret p18 3 (by gd) (by gd)

/-- `reads_permitted_no_wb` applied to a discard, a write-through write to the same
sector, a power failure and a read: after the write only its value is permitted. -/
example : ∃ m, Run 2 (fun s _ _ => NoWb s) p18 m ∧
    m.Permits (obs (.retR 3 (p18.req 3).res)) ∧ (∀ v, m.exp 3 0 0 v ↔ v = 4) := by
  have r1 := (Run.init init0 : Run 2 (fun s _ (_ : Ev Nat) => NoWb s) p0 m0).step pt1
    (by unfold NoWb; gd) (.callD _ _)
  have r2 := r1.step pt2
    (by unfold NoWb; gd) (.nothing)
  have r3 := r2.step pt3
    (by unfold NoWb; gd) (.nothing)
  have r4 := r3.step pt4
    (by unfold NoWb; gd) (.nothing)
  have r5 := r4.step pt5
    (by unfold NoWb; gd) (.nothing)
  have r6 := r5.step pt6
    (by unfold NoWb; gd) (.ackW _)
  have r7 := r6.step pt7
    (by unfold NoWb; gd) (.callW _ _ _)
  have r8 := r7.step pt8
    (by unfold NoWb; gd) (.nothing)
  have r9 := r8.step pt9
    (by unfold NoWb; gd) (.nothing)
  have r10 := r9.step pt10
    (by unfold NoWb; gd) (.nothing)
  have r11 := r10.step pt11
    (by unfold NoWb; gd) (.nothing)
  have r12 := r11.step pt12
    (by unfold NoWb; gd) (.nothing)
  have r13 := r12.step pt13
    (by unfold NoWb; gd) (.ackW _)
  have r14 := r13.step pt14
    (by unfold NoWb; gd) (.crash)
  have r15 := r14.step pt15
    (by unfold NoWb; gd) (.callR _ _)
  have r16 := r15.step pt16
    (by unfold NoWb; gd) (.nothing)
  have r17 := r16.step pt17
    (by unfold NoWb; gd) (.nothing)
  have r18 := r17.step pt18
    (by unfold NoWb; gd) (.nothing)
  refine ⟨_, r18, reads_permitted_no_wb r18 pt19, fun v => ?_⟩
  simp [Mon.busy]
  try grind

end Verif.Engine.DiscardRace
