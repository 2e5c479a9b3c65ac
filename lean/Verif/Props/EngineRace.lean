import Verif.Lemma.EngineTrace
import Verif.Props.EngineCrash

/-!
# A write lost by the cleaner

A concrete execution.  Lines have two sectors; only core line 0 and cache line 0 are
used, and everything is zero at first.

* Write 0 (write-invalidate, 2 into sector 1) finds the line not mapped.
* Read 1 of sector 1 misses, maps the line and reads the old 0 from the core.
* Write 0 puts its 2 into the core.  Read 1 returns and fills the cache with the old 0.
* Write 2 (write-back, 1 into sector 0) makes sector 0 dirty and is acknowledged.
* Cleaner 3 writes back the whole line, because all its sectors are valid
  (`utils_cleaner.c:457-463`): the old 0 of sector 1 overwrites the 2 in the core.
* Write 0 invalidates sector 1 in its second pass and is acknowledged.
* Read 4 of sector 1 returns 0.
-/

namespace Verif.Engine.Race
open Verif.EngineSpec Verif.Engine

@[simp] def a1 : St Nat := (a0.setReq 0 (Req.fresh ({ idle with on := fun c => c == 0, has := (fun c t => (c == 0 && t == 1)), data := fun _ _ => 2 }) (.wi) .look true))
theorem at1 : Step 2 a0 .other (.invW 0 ({ idle with on := fun c => c == 0, has := (fun c t => (c == 0 && t == 1)), data := fun _ _ => 2 }).has ({ idle with on := fun c => c == 0, has := (fun c t => (c == 0 && t == 1)), data := fun _ _ => 2 }).data) a1 :=
  Step.invW a0 0 ({ idle with on := fun c => c == 0, has := (fun c t => (c == 0 && t == 1)), data := fun _ _ => 2 }) (.wi) (by gd) (by gd) (by gd) (by gd) (by gd)
@[simp] def a2 : St Nat := (a1.setReq 0 { a1.req 0 with ent := upd (a1.req 0).ent 0 .none })
theorem at2 : Step 2 a1 (.miss 0 0) .tau a2 :=
  Step.miss a1 0 0 (by gd) (by gd) (by gd) (by gd) (by gd)
@[simp] def a3 : St Nat := { a2 with
          valid := (a2.valid)
          req := upd a2.req 0
            { a2.req 0 with
              pc := .xfer
              toCache := fun c t => (a2.req 0).has c t &&
                ((a2.req 0).eng == .wt || (a2.req 0).eng == .wb)
              toCore := fun c t => (a2.req 0).has c t &&
                ((a2.req 0).eng == .wt || (a2.req 0).eng == .wi) } }
theorem at3 : Step 2 a2 .other .tau a3 :=
  Step.goWrite a2 0 false (a2.valid) (by gd) (by gd) (by gd) (by gd) (by gd)
@[simp] def a4 : St Nat := (a3.setReq 1 (Req.fresh ({ idle with on := fun c => c == 0, has := (fun c t => (c == 0 && t == 1)), data := fun _ _ => 0 }) (.gen) .look true))
theorem at4 : Step 2 a3 .other (.invR 1 ({ idle with on := fun c => c == 0, has := (fun c t => (c == 0 && t == 1)), data := fun _ _ => 0 }).has) a4 :=
  Step.invR a3 1 ({ idle with on := fun c => c == 0, has := (fun c t => (c == 0 && t == 1)), data := fun _ _ => 0 }) (.gen) true (by gd) (by gd) (by gd) (by gd) (by gd)
@[simp] def a5 : St Nat := { a4 with
          map := upd a4.map 0 (some 0)
          valid := fun k t => if k = 0 then false else a4.valid k t
          req := upd a4.req 1
            { a4.req 1 with
              ent := upd (a4.req 1).ent 0 (.line 0)
              held := upd (a4.req 1).held 0 true } }
theorem at5 : Step 2 a4 (.remap 0 0) .tau a5 :=
  Step.remap a4 1 0 0 (by gd) (by gd) (by gd) (by gd) (by gd) (by gd) (by gd) (by gd)
@[simp] def a6 : St Nat := (a5.setReq 1 { a5.req 1 with pc := .oread })
theorem at6 : Step 2 a5 .other .tau a6 :=
  Step.goCore a5 1 (by gd) (by gd) (by gd) (by gd)
@[simp] def a7 : St Nat := (a6.setReq 1 { a6.req 1 with res := upd2 (a6.req 1).res 0 1 (some (a6.core 0 1)) })
theorem at7 : Step 2 a6 .other .tau a7 :=
  Step.rdCore a6 1 0 1 (by gd) (by gd)
@[simp] def a8 : St Nat := { a7 with
          core := upd2 a7.core 0 1 ((a7.req 0).data 0 1)
          req := upd a7.req 0
            { a7.req 0 with toCore := upd2 (a7.req 0).toCore 0 1 false } }
theorem at8 : Step 2 a7 .other .tau a8 :=
  Step.wCore a7 0 0 1 (by gd) (by gd)
@[simp] def a9 : St Nat := (a8.setReq 1 { a8.req 1 with pc := .fill, toCache := (a8.req 1).has })
theorem at9 : Step 2 a8 .other (.retR 1 (a8.req 1).res) a9 :=
  Step.retFill a8 1 (by gd) (by gd) (by gd) (by gd)
@[simp] def a10 : St Nat := { a9 with
          cache := upd2 a9.cache 0 1 0
          req := upd a9.req 1
            { a9.req 1 with toCache := upd2 (a9.req 1).toCache 0 1 false } }
theorem at10 : Step 2 a9 .other .tau a10 :=
  Step.fill a9 1 0 1 0 0 (by gd) (by gd) (by gd) (by gd)
@[simp] def a11 : St Nat := { a10 with valid := ((fun l t => l == 0 && t == 1)), req := upd a10.req 1 (a10.req 1).done }
theorem at11 : Step 2 a10 .other .tau a11 :=
  Step.fillEnd a10 1 ((fun l t => l == 0 && t == 1)) (by gd) (by gd) (by gd)
@[simp] def a12 : St Nat := (a11.setReq 2 (Req.fresh ({ idle with on := fun c => c == 0, has := (fun c t => (c == 0 && t == 0)), data := fun _ _ => 1 }) (.wb) .look true))
theorem at12 : Step 2 a11 .other (.invW 2 ({ idle with on := fun c => c == 0, has := (fun c t => (c == 0 && t == 0)), data := fun _ _ => 1 }).has ({ idle with on := fun c => c == 0, has := (fun c t => (c == 0 && t == 0)), data := fun _ _ => 1 }).data) a12 :=
  Step.invW a11 2 ({ idle with on := fun c => c == 0, has := (fun c t => (c == 0 && t == 0)), data := fun _ _ => 1 }) (.wb) (by gd) (by gd) (by gd) (by gd) (by gd)
@[simp] def a13 : St Nat := (a12.setReq 2 { a12.req 2 with ent := upd (a12.req 2).ent 0 (.line 0) })
theorem at13 : Step 2 a12 .other .tau a13 :=
  Step.look a12 2 0 0 (by gd) (by gd) (by gd) (by gd)
@[simp] def a14 : St Nat := (a13.setReq 2 { a13.req 2 with held := upd (a13.req 2).held 0 true })
theorem at14 : Step 2 a13 .other .tau a14 :=
  Step.grab a13 2 0 0 (by gd) (by gd) (by gd) (by gd)
@[simp] def a15 : St Nat := { a14 with
          valid := (a14.valid)
          req := upd a14.req 2
            { a14.req 2 with
              pc := .xfer
              toCache := fun c t => (a14.req 2).has c t &&
                ((a14.req 2).eng == .wt || (a14.req 2).eng == .wb)
              toCore := fun c t => (a14.req 2).has c t &&
                ((a14.req 2).eng == .wt || (a14.req 2).eng == .wi) } }
theorem at15 : Step 2 a14 .other .tau a15 :=
  Step.goWrite a14 2 false (a14.valid) (by gd) (by gd) (by gd) (by gd) (by gd)
@[simp] def a16 : St Nat := { a15 with
          cache := upd2 a15.cache 0 0 ((a15.req 2).data 0 0)
          req := upd a15.req 2
            { a15.req 2 with toCache := upd2 (a15.req 2).toCache 0 0 false } }
theorem at16 : Step 2 a15 .other .tau a16 :=
  Step.wCache a15 2 0 0 0 (by gd) (by gd) (by gd)
@[simp] def a17 : St Nat := { a16 with
          valid := fun k t => if k = 0 ∧ (a16.req 2).has 0 t = true then
            ((a16.req 2).eng == .wt || (a16.req 2).eng == .wb) else a16.valid k t
          dirty := fun k t => if k = 0 ∧ (a16.req 2).has 0 t = true then
            ((a16.req 2).eng == .wb) else a16.dirty k t
          req := upd a16.req 2
            { a16.req 2 with
              updd := upd (a16.req 2).updd 0 true
              need := upd (a16.req 2).need 0 true } }
theorem at17 : Step 2 a16 .other .tau a17 :=
  Step.update a16 2 0 0 true (by gd) (by gd) (by gd) (by gd) (by gd) (by gd)
@[simp] def a18 : St Nat := { a17 with
          dmap := upd a17.dmap 0 (a17.map 0)
          ddirty := upd a17.ddirty 0 (a17.dirty 0)
          req := upd a17.req 2 { a17.req 2 with need := upd (a17.req 2).need 0 false } }
theorem at18 : Step 2 a17 .other .tau a18 :=
  Step.flush a17 2 0 0 (by gd) (by gd)
@[simp] def a19 : St Nat := (a18.setReq 2 (a18.req 2).done)
theorem at19 : Step 2 a18 .other (.ackW 2) a19 :=
  Step.ack a18 2 (by gd) (by gd) (by gd) (by gd) (by gd) (by gd)
@[simp] def a20 : St Nat := (a19.setReq 3 ((a19.req 3).done.fresh .cln .clean false))
theorem at20 : Step 2 a19 .other .tau a20 :=
  Step.invC a19 3 (by gd)
@[simp] def a21 : St Nat := (a20.setReq 3 { a20.req 3 with
          on := upd (a20.req 3).on 0 true
          ent := upd (a20.req 3).ent 0 (.line 0)
          held := upd (a20.req 3).held 0 true })
theorem at21 : Step 2 a20 .other .tau a21 :=
  Step.cgrab a20 3 0 0 (by gd) (by gd) (by gd) (by gd) (by gd)
@[simp] def a22 : St Nat := (a21.setReq 3 { a21.req 3 with
          fired := upd (a21.req 3).fired 0 true
          buf := upd (a21.req 3).buf 0 (a21.cache 0)
          wback := upd (a21.req 3).wback 0 ((fun t => t == 0 || t == 1)) })
theorem at22 : Step 2 a21 .other .tau a22 :=
  Step.cfire a21 3 0 0 ((fun t => t == 0 || t == 1)) (by gd) (by gd) (by gd) (by gd) (by gd)
@[simp] def a23 : St Nat := { a22 with
          core := upd2 a22.core 0 1 ((a22.req 3).buf 0 1)
          req := upd a22.req 3
            { a22.req 3 with wback := upd2 (a22.req 3).wback 0 1 false } }
theorem at23 : Step 2 a22 (.wback 3 0 1) .tau a23 :=
  Step.cwrite a22 3 0 1 (by gd) (by gd)
@[simp] def a24 : St Nat := { a23 with
          core := upd2 a23.core 0 0 ((a23.req 3).buf 0 0)
          req := upd a23.req 3
            { a23.req 3 with wback := upd2 (a23.req 3).wback 0 0 false } }
theorem at24 : Step 2 a23 (.wback 3 0 0) .tau a24 :=
  Step.cwrite a23 3 0 0 (by gd) (by gd)
@[simp] def a25 : St Nat := { a24 with
          dirty := fun k t => if k = 0 then false else a24.dirty k t
          req := upd a24.req 3
            { a24.req 3 with
              marked := upd (a24.req 3).marked 0 true
              need := upd (a24.req 3).need 0 true } }
theorem at25 : Step 2 a24 .other .tau a25 :=
  Step.cmark a24 3 0 0 true (by gd) (by gd) (by gd) (by gd) (by gd) (by gd)
@[simp] def a26 : St Nat := { a25 with
          dmap := upd a25.dmap 0 (a25.map 0)
          ddirty := upd a25.ddirty 0 (a25.dirty 0)
          req := upd a25.req 3 { a25.req 3 with need := upd (a25.req 3).need 0 false } }
theorem at26 : Step 2 a25 .other .tau a26 :=
  Step.flush a25 3 0 0 (by gd) (by gd)
@[simp] def a27 : St Nat := (a26.setReq 3 (a26.req 3).done)
theorem at27 : Step 2 a26 (.quit 3) .tau a27 :=
  Step.cendBg a26 3 (by gd) (by gd)
@[simp] def a28 : St Nat := (a27.setReq 0 ((a27.req 0).fresh .wi2 .look true))
theorem at28 : Step 2 a27 .other .tau a28 :=
  Step.pass2 a27 0 (by gd) (by gd) (by gd) (by gd)
@[simp] def a29 : St Nat := (a28.setReq 0 { a28.req 0 with ent := upd (a28.req 0).ent 0 (.line 0) })
theorem at29 : Step 2 a28 .other .tau a29 :=
  Step.look a28 0 0 0 (by gd) (by gd) (by gd) (by gd)
@[simp] def a30 : St Nat := (a29.setReq 0 { a29.req 0 with held := upd (a29.req 0).held 0 true })
theorem at30 : Step 2 a29 .other .tau a30 :=
  Step.grab a29 0 0 0 (by gd) (by gd) (by gd) (by gd)
@[simp] def a31 : St Nat := { a30 with
          valid := (a30.valid)
          req := upd a30.req 0
            { a30.req 0 with
              pc := .xfer
              toCache := fun c t => (a30.req 0).has c t &&
                ((a30.req 0).eng == .wt || (a30.req 0).eng == .wb)
              toCore := fun c t => (a30.req 0).has c t &&
                ((a30.req 0).eng == .wt || (a30.req 0).eng == .wi) } }
theorem at31 : Step 2 a30 .other .tau a31 :=
  Step.goWrite a30 0 false (a30.valid) (by gd) (by gd) (by gd) (by gd) (by gd)
@[simp] def a32 : St Nat := { a31 with
          valid := fun k t => if k = 0 ∧ (a31.req 0).has 0 t = true then
            ((a31.req 0).eng == .wt || (a31.req 0).eng == .wb) else a31.valid k t
          dirty := fun k t => if k = 0 ∧ (a31.req 0).has 0 t = true then
            ((a31.req 0).eng == .wb) else a31.dirty k t
          req := upd a31.req 0
            { a31.req 0 with
              updd := upd (a31.req 0).updd 0 true
              need := upd (a31.req 0).need 0 true } }
theorem at32 : Step 2 a31 .other .tau a32 :=
  Step.update a31 0 0 0 true (by gd) (by gd) (by gd) (by gd) (by gd) (by gd)
@[simp] def a33 : St Nat := { a32 with
          dmap := upd a32.dmap 0 (a32.map 0)
          ddirty := upd a32.ddirty 0 (a32.dirty 0)
          req := upd a32.req 0 { a32.req 0 with need := upd (a32.req 0).need 0 false } }
theorem at33 : Step 2 a32 .other .tau a33 :=
  Step.flush a32 0 0 0 (by gd) (by gd)
@[simp] def a34 : St Nat := (a33.setReq 0 (a33.req 0).done)
theorem at34 : Step 2 a33 .other (.ackW 0) a34 :=
  Step.ack a33 0 (by gd) (by gd) (by gd) (by gd) (by gd) (by gd)
@[simp] def a35 : St Nat := (a34.setReq 4 (Req.fresh ({ idle with on := fun c => c == 0, has := (fun c t => (c == 0 && t == 1)), data := fun _ _ => 0 }) (.pt) .look false))
theorem at35 : Step 2 a34 .other (.invR 4 ({ idle with on := fun c => c == 0, has := (fun c t => (c == 0 && t == 1)), data := fun _ _ => 0 }).has) a35 :=
  Step.invR a34 4 ({ idle with on := fun c => c == 0, has := (fun c t => (c == 0 && t == 1)), data := fun _ _ => 0 }) (.pt) false (by gd) (by gd) (by gd) (by gd) (by gd)
@[simp] def a36 : St Nat := (a35.setReq 4 { a35.req 4 with ent := upd (a35.req 4).ent 0 (.line 0) })
theorem at36 : Step 2 a35 .other .tau a36 :=
  Step.look a35 4 0 0 (by gd) (by gd) (by gd) (by gd)
@[simp] def a37 : St Nat := (a36.setReq 4 { a36.req 4 with held := upd (a36.req 4).held 0 true })
theorem at37 : Step 2 a36 .other .tau a37 :=
  Step.grab a36 4 0 0 (by gd) (by gd) (by gd) (by gd)
@[simp] def a38 : St Nat := (a37.setReq 4 { a37.req 4 with pc := .oread })
theorem at38 : Step 2 a37 .other .tau a38 :=
  Step.goCore a37 4 (by gd) (by gd) (by gd) (by gd)
@[simp] def a39 : St Nat := (a38.setReq 4 { a38.req 4 with res := upd2 (a38.req 4).res 0 1 (some (a38.core 0 1)) })
theorem at39 : Step 2 a38 .other .tau a39 :=
  Step.rdCore a38 4 0 1 (by gd) (by gd)
@[simp] def a40 : St Nat := (a39.setReq 4 (a39.req 4).done)
theorem at40 : Step 2 a39 .other (.retR 4 (a39.req 4).res) a40 :=
  Step.ret a39 4 (by gd) (by gd)

/-- The whole run up to the last read's completion; no power failure happens. -/
theorem run39 : ∃ m, Run 2 (fun s a e => NoLostDrop s a ∧ NoFlushError s a ∧ e ≠ .crash) a39 m ∧
    ¬ m.Permits (obs (.retR 4 (a39.req 4).res)) := by

  have r1 := (Run.init init0 : Run 2 (fun s a (e : Ev Nat) => NoLostDrop s a ∧ NoFlushError s a ∧ e ≠ .crash) a0 m0).step at1 ⟨(by nofun), (by nofun), (by nofun)⟩ (.callW _ _ _)
  have r2 := r1.step at2 ⟨(by nofun), (by nofun), (by nofun)⟩ (.nothing)
  have r3 := r2.step at3 ⟨(by nofun), (by nofun), (by nofun)⟩ (.nothing)
  have r4 := r3.step at4 ⟨(by nofun), (by nofun), (by nofun)⟩ (.callR _ _)
  have r5 := r4.step at5 ⟨(by nofun), (by nofun), (by nofun)⟩ (.nothing)
  have r6 := r5.step at6 ⟨(by nofun), (by nofun), (by nofun)⟩ (.nothing)
  have r7 := r6.step at7 ⟨(by nofun), (by nofun), (by nofun)⟩ (.nothing)
  have r8 := r7.step at8 ⟨(by nofun), (by nofun), (by nofun)⟩ (.nothing)
  have r9 := r8.step at9 ⟨(by nofun), (by nofun), (by nofun)⟩ (.retR _ _)
  have r10 := r9.step at10 ⟨(by nofun), (by nofun), (by nofun)⟩ (.nothing)
  have r11 := r10.step at11 ⟨(by nofun), (by nofun), (by nofun)⟩ (.nothing)
  have r12 := r11.step at12 ⟨(by nofun), (by nofun), (by nofun)⟩ (.callW _ _ _)
  have r13 := r12.step at13 ⟨(by nofun), (by nofun), (by nofun)⟩ (.nothing)
  have r14 := r13.step at14 ⟨(by nofun), (by nofun), (by nofun)⟩ (.nothing)
  have r15 := r14.step at15 ⟨(by nofun), (by nofun), (by nofun)⟩ (.nothing)
  have r16 := r15.step at16 ⟨(by nofun), (by nofun), (by nofun)⟩ (.nothing)
  have r17 := r16.step at17 ⟨(by nofun), (by nofun), (by nofun)⟩ (.nothing)
  have r18 := r17.step at18 ⟨(by nofun), (by nofun), (by nofun)⟩ (.nothing)
  have r19 := r18.step at19 ⟨(by nofun), (by nofun), (by nofun)⟩ (.ackW _)
  have r20 := r19.step at20 ⟨(by nofun), (by nofun), (by nofun)⟩ (.nothing)
  have r21 := r20.step at21 ⟨(by nofun), (by nofun), (by nofun)⟩ (.nothing)
  have r22 := r21.step at22 ⟨(by nofun), (by nofun), (by nofun)⟩ (.nothing)
  have r23 := r22.step at23 ⟨(by nofun), (by nofun), (by nofun)⟩ (.nothing)
  have r24 := r23.step at24 ⟨(by nofun), (by nofun), (by nofun)⟩ (.nothing)
  have r25 := r24.step at25 ⟨(by nofun), (by nofun), (by nofun)⟩ (.nothing)
  have r26 := r25.step at26 ⟨(by nofun), (by nofun), (by nofun)⟩ (.nothing)
  have r27 := r26.step at27 ⟨(by nofun), (by rintro _ ⟨⟩; gd), (by nofun)⟩ (.nothing)
  have r28 := r27.step at28 ⟨(by nofun), (by nofun), (by nofun)⟩ (.nothing)
  have r29 := r28.step at29 ⟨(by nofun), (by nofun), (by nofun)⟩ (.nothing)
  have r30 := r29.step at30 ⟨(by nofun), (by nofun), (by nofun)⟩ (.nothing)
  have r31 := r30.step at31 ⟨(by nofun), (by nofun), (by nofun)⟩ (.nothing)
  have r32 := r31.step at32 ⟨(by nofun), (by nofun), (by nofun)⟩ (.nothing)
  have r33 := r32.step at33 ⟨(by nofun), (by nofun), (by nofun)⟩ (.nothing)
  have r34 := r33.step at34 ⟨(by nofun), (by nofun), (by nofun)⟩ (.ackW _)
  have r35 := r34.step at35 ⟨(by nofun), (by nofun), (by nofun)⟩ (.callR _ _)
  have r36 := r35.step at36 ⟨(by nofun), (by nofun), (by nofun)⟩ (.nothing)
  have r37 := r36.step at37 ⟨(by nofun), (by nofun), (by nofun)⟩ (.nothing)
  have r38 := r37.step at38 ⟨(by nofun), (by nofun), (by nofun)⟩ (.nothing)
  have r39 := r38.step at39 ⟨(by nofun), (by nofun), (by nofun)⟩ (.nothing)
  refine ⟨_, r39, fun h => ?_⟩
  obtain ⟨v, h1, h2⟩ := h 0 1 (by simp)
  have h3 : (a39.req 4).res 0 1 = some 0 := rfl
  rw [h3] at h1
  cases h1
  simp [Mon.busy] at h2

/-- C01 fails when a cleaner may write back a sector that is not dirty while a
write-invalidate write is pending: an execution without power failure in which a
completed read returns a value not permitted (the only write to the sector was
acknowledged before the read was called, and the read returns the value before it).
No I/O fails. -/
theorem cleaner_overwrites_write_invalidate :
    ∃ (s s' : St Nat) (m : Mon Nat) (e : Ev Nat), Run 2 (fun s a e => NoLostDrop s a ∧ NoFlushError s a ∧ e ≠ .crash) s m ∧
      Step 2 s .other e s' ∧ ¬ m.Permits (obs e) := by
  obtain ⟨m, h1, h2⟩ := run39
  exact ⟨_, _, _, _, h1, at40, h2⟩


/-- `reads_permitted_partial` applied to a read miss racing with a write-invalidate
write. -/
example : ∃ m, Run 2 (fun s a e => NoStaleWriteback s a ∧ NoLostDrop s a ∧ e ≠ .crash) a8 m ∧
    m.Permits (obs (.retR 1 (a8.req 1).res)) := by

  have r1 := (Run.init init0 : Run 2 (fun s a (e : Ev Nat) => NoStaleWriteback s a ∧ NoLostDrop s a ∧ e ≠ .crash) a0 m0).step at1
    ⟨(by intro _ _ _ h; cases h), (by nofun), (by nofun)⟩ (.callW _ _ _)
  have r2 := r1.step at2
    ⟨(by intro _ _ _ h; cases h), (by nofun), (by nofun)⟩ (.nothing)
  have r3 := r2.step at3
    ⟨(by intro _ _ _ h; cases h), (by nofun), (by nofun)⟩ (.nothing)
  have r4 := r3.step at4
    ⟨(by intro _ _ _ h; cases h), (by nofun), (by nofun)⟩ (.callR _ _)
  have r5 := r4.step at5
    ⟨(by intro _ _ _ h; cases h), (by nofun), (by nofun)⟩ (.nothing)
  have r6 := r5.step at6
    ⟨(by intro _ _ _ h; cases h), (by nofun), (by nofun)⟩ (.nothing)
  have r7 := r6.step at7
    ⟨(by intro _ _ _ h; cases h), (by nofun), (by nofun)⟩ (.nothing)
  have r8 := r7.step at8
    ⟨(by intro _ _ _ h; cases h), (by nofun), (by nofun)⟩ (.nothing)
  exact ⟨_, r8, reads_permitted_partial r8 at9 (by intro _ _ _ h; cases h) (by nofun) (by nofun)⟩

/-! ## An older write lost by a failing write

* Write 0 (write-back, 1 into sector 0) makes the sector dirty and is acknowledged.
* Write 1 (write-back, 5 into sector 0) fails and drops its sector from the cache.
* Read 2 of sector 0 returns the 0 of the core: neither the 1 nor the 5. -/

@[simp] abbrev e0 := a0
@[simp] def e1 : St Nat := (e0.setReq 0 (Req.fresh ({ idle with on := fun c => c == 0, has := (fun c t => (c == 0 && t == 0)), data := fun _ _ => 1 }) (.wb) .look true))
theorem et1 : Step 2 e0 .other (.invW 0 ({ idle with on := fun c => c == 0, has := (fun c t => (c == 0 && t == 0)), data := fun _ _ => 1 }).has ({ idle with on := fun c => c == 0, has := (fun c t => (c == 0 && t == 0)), data := fun _ _ => 1 }).data) e1 :=
  Step.invW e0 0 ({ idle with on := fun c => c == 0, has := (fun c t => (c == 0 && t == 0)), data := fun _ _ => 1 }) (.wb) (by gd) (by gd) (by gd) (by gd) (by gd)
@[simp] def e2 : St Nat := { e1 with
          map := upd e1.map 0 (some 0)
          valid := fun k t => if k = 0 then false else e1.valid k t
          req := upd e1.req 0
            { e1.req 0 with
              ent := upd (e1.req 0).ent 0 (.line 0)
              held := upd (e1.req 0).held 0 true } }
theorem et2 : Step 2 e1 (.remap 0 0) .tau e2 :=
  Step.remap e1 0 0 0 (by gd) (by gd) (by gd) (by gd) (by gd) (by gd) (by gd) (by gd)
@[simp] def e3 : St Nat := { e2 with
          valid := (e2.valid)
          req := upd e2.req 0
            { e2.req 0 with
              pc := .xfer
              toCache := fun c t => (e2.req 0).has c t &&
                ((e2.req 0).eng == .wt || (e2.req 0).eng == .wb)
              toCore := fun c t => (e2.req 0).has c t &&
                ((e2.req 0).eng == .wt || (e2.req 0).eng == .wi) } }
theorem et3 : Step 2 e2 .other .tau e3 :=
  Step.goWrite e2 0 false (e2.valid) (by gd) (by gd) (by gd) (by gd) (by gd)
@[simp] def e4 : St Nat := { e3 with
          cache := upd2 e3.cache 0 0 ((e3.req 0).data 0 0)
          req := upd e3.req 0
            { e3.req 0 with toCache := upd2 (e3.req 0).toCache 0 0 false } }
theorem et4 : Step 2 e3 .other .tau e4 :=
  Step.wCache e3 0 0 0 0 (by gd) (by gd) (by gd)
@[simp] def e5 : St Nat := { e4 with
          valid := fun k t => if k = 0 ∧ (e4.req 0).has 0 t = true then
            ((e4.req 0).eng == .wt || (e4.req 0).eng == .wb) else e4.valid k t
          dirty := fun k t => if k = 0 ∧ (e4.req 0).has 0 t = true then
            ((e4.req 0).eng == .wb) else e4.dirty k t
          req := upd e4.req 0
            { e4.req 0 with
              updd := upd (e4.req 0).updd 0 true
              need := upd (e4.req 0).need 0 true } }
theorem et5 : Step 2 e4 .other .tau e5 :=
  Step.update e4 0 0 0 true (by gd) (by gd) (by gd) (by gd) (by gd) (by gd)
@[simp] def e6 : St Nat := { e5 with
          dmap := upd e5.dmap 0 (e5.map 0)
          ddirty := upd e5.ddirty 0 (e5.dirty 0)
          req := upd e5.req 0 { e5.req 0 with need := upd (e5.req 0).need 0 false } }
theorem et6 : Step 2 e5 .other .tau e6 :=
  Step.flush e5 0 0 0 (by gd) (by gd)
@[simp] def e7 : St Nat := (e6.setReq 0 (e6.req 0).done)
theorem et7 : Step 2 e6 .other (.ackW 0) e7 :=
  Step.ack e6 0 (by gd) (by gd) (by gd) (by gd) (by gd) (by gd)
@[simp] def e8 : St Nat := (e7.setReq 1 (Req.fresh ({ idle with on := fun c => c == 0, has := (fun c t => (c == 0 && t == 0)), data := fun _ _ => 5 }) (.wb) .look true))
theorem et8 : Step 2 e7 .other (.invW 1 ({ idle with on := fun c => c == 0, has := (fun c t => (c == 0 && t == 0)), data := fun _ _ => 5 }).has ({ idle with on := fun c => c == 0, has := (fun c t => (c == 0 && t == 0)), data := fun _ _ => 5 }).data) e8 :=
  Step.invW e7 1 ({ idle with on := fun c => c == 0, has := (fun c t => (c == 0 && t == 0)), data := fun _ _ => 5 }) (.wb) (by gd) (by gd) (by gd) (by gd) (by gd)
@[simp] def e9 : St Nat := (e8.setReq 1 { e8.req 1 with ent := upd (e8.req 1).ent 0 (.line 0) })
theorem et9 : Step 2 e8 .other .tau e9 :=
  Step.look e8 1 0 0 (by gd) (by gd) (by gd) (by gd)
@[simp] def e10 : St Nat := (e9.setReq 1 { e9.req 1 with held := upd (e9.req 1).held 0 true })
theorem et10 : Step 2 e9 .other .tau e10 :=
  Step.grab e9 1 0 0 (by gd) (by gd) (by gd) (by gd)
@[simp] def e11 : St Nat := { e10 with
          valid := (e10.valid)
          req := upd e10.req 1
            { e10.req 1 with
              pc := .xfer
              toCache := fun c t => (e10.req 1).has c t &&
                ((e10.req 1).eng == .wt || (e10.req 1).eng == .wb)
              toCore := fun c t => (e10.req 1).has c t &&
                ((e10.req 1).eng == .wt || (e10.req 1).eng == .wi) } }
theorem et11 : Step 2 e10 .other .tau e11 :=
  Step.goWrite e10 1 false (e10.valid) (by gd) (by gd) (by gd) (by gd) (by gd)
@[simp] def e12 : St Nat := { e11 with valid := (fun k t => e11.valid k t && !(k == 0 && t == 0)), dirty := (fun k t => e11.dirty k t && !(k == 0 && t == 0)), req := upd e11.req 1 (e11.req 1).done }
theorem et12 : Step 2 e11 (.purge 1) (.errW 1) e12 :=
  Step.errWr e11 1 (fun k t => e11.valid k t && !(k == 0 && t == 0)) (fun k t => e11.dirty k t && !(k == 0 && t == 0)) (by gd) (by gd) (by gd) (by gp) (by gp)
@[simp] def e13 : St Nat := (e12.setReq 2 (Req.fresh ({ idle with on := fun c => c == 0, has := (fun c t => (c == 0 && t == 0)), data := fun _ _ => 0 }) (.pt) .look false))
theorem et13 : Step 2 e12 .other (.invR 2 ({ idle with on := fun c => c == 0, has := (fun c t => (c == 0 && t == 0)), data := fun _ _ => 0 }).has) e13 :=
  Step.invR e12 2 ({ idle with on := fun c => c == 0, has := (fun c t => (c == 0 && t == 0)), data := fun _ _ => 0 }) (.pt) false (by gd) (by gd) (by gd) (by gd) (by gd)
@[simp] def e14 : St Nat := (e13.setReq 2 { e13.req 2 with ent := upd (e13.req 2).ent 0 (.line 0) })
theorem et14 : Step 2 e13 .other .tau e14 :=
  Step.look e13 2 0 0 (by gd) (by gd) (by gd) (by gd)
@[simp] def e15 : St Nat := (e14.setReq 2 { e14.req 2 with held := upd (e14.req 2).held 0 true })
theorem et15 : Step 2 e14 .other .tau e15 :=
  Step.grab e14 2 0 0 (by gd) (by gd) (by gd) (by gd)
@[simp] def e16 : St Nat := (e15.setReq 2 { e15.req 2 with pc := .oread })
theorem et16 : Step 2 e15 .other .tau e16 :=
  Step.goCore e15 2 (by gd) (by gd) (by gd) (by gd)
@[simp] def e17 : St Nat := (e16.setReq 2 { e16.req 2 with res := upd2 (e16.req 2).res 0 0 (some (e16.core 0 0)) })
theorem et17 : Step 2 e16 .other .tau e17 :=
  Step.rdCore e16 2 0 0 (by gd) (by gd)
@[simp] def e18 : St Nat := (e17.setReq 2 (e17.req 2).done)
theorem et18 : Step 2 e17 .other (.retR 2 (e17.req 2).res) e18 :=
  Step.ret e17 2 (by gd) (by gd)

theorem erun : ∃ m, Run 2 (fun s a e => NoStaleWriteback s a ∧ NoFlushError s a ∧ e ≠ .crash) e17 m ∧
    ¬ m.Permits (obs (.retR 2 (e17.req 2).res)) := by
  have r1 := (Run.init init0 : Run 2 (fun s a (e : Ev Nat) => NoStaleWriteback s a ∧ NoFlushError s a ∧ e ≠ .crash) e0 m0).step et1
    ⟨(by nofun), (by nofun), (by nofun)⟩ (.callW _ _ _)
  have r2 := r1.step et2
    ⟨(by nofun), (by nofun), (by nofun)⟩ (.nothing)
  have r3 := r2.step et3
    ⟨(by nofun), (by nofun), (by nofun)⟩ (.nothing)
  have r4 := r3.step et4
    ⟨(by nofun), (by nofun), (by nofun)⟩ (.nothing)
  have r5 := r4.step et5
    ⟨(by nofun), (by nofun), (by nofun)⟩ (.nothing)
  have r6 := r5.step et6
    ⟨(by nofun), (by nofun), (by nofun)⟩ (.nothing)
  have r7 := r6.step et7
    ⟨(by nofun), (by nofun), (by nofun)⟩ (.ackW _)
  have r8 := r7.step et8
    ⟨(by nofun), (by nofun), (by nofun)⟩ (.callW _ _ _)
  have r9 := r8.step et9
    ⟨(by nofun), (by nofun), (by nofun)⟩ (.nothing)
  have r10 := r9.step et10
    ⟨(by nofun), (by nofun), (by nofun)⟩ (.nothing)
  have r11 := r10.step et11
    ⟨(by nofun), (by nofun), (by nofun)⟩ (.nothing)
  have r12 := r11.step et12
    ⟨(by nofun), (by nofun), (by nofun)⟩ (.errW _)
  have r13 := r12.step et13
    ⟨(by nofun), (by nofun), (by nofun)⟩ (.callR _ _)
  have r14 := r13.step et14
    ⟨(by nofun), (by nofun), (by nofun)⟩ (.nothing)
  have r15 := r14.step et15
    ⟨(by nofun), (by nofun), (by nofun)⟩ (.nothing)
  have r16 := r15.step et16
    ⟨(by nofun), (by nofun), (by nofun)⟩ (.nothing)
  have r17 := r16.step et17
    ⟨(by nofun), (by nofun), (by nofun)⟩ (.nothing)
  refine ⟨_, r17, fun h => ?_⟩
  obtain ⟨v, h1, h2⟩ := h 0 0 (by simp)
  have h3 : (e17.req 2).res 0 0 = some 0 := rfl
  rw [h3] at h1
  cases h1
  simp [Mon.busy] at h2

/-- C01 fails when a write which fails may drop a sector that was dirty before it: an
execution without power failure, without write-invalidate writes and without any cleaner,
in which a read returns a value older than an acknowledged write, though the only write
called after that one failed. -/
theorem failed_write_loses_older_write :
    ∃ (s s' : St Nat) (m : Mon Nat) (e : Ev Nat),
      Run 2 (fun s a e => NoStaleWriteback s a ∧ NoFlushError s a ∧ e ≠ .crash) s m ∧
      Step 2 s .other e s' ∧ ¬ m.Permits (obs e) := by
  obtain ⟨m, h1, h2⟩ := erun
  exact ⟨_, _, _, _, h1, et18, h2⟩


end Verif.Engine.Race
