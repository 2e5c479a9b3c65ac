import Verif.Props.Engine

namespace Verif.Engine
open Verif.EngineSpec

/-- A request slot which was never used. -/
def idle : Req Nat :=
  { eng := .gen, pc := .free, excl := false, on := fun _ => false, has := fun _ _ => false
    data := fun _ _ => 0, ent := fun _ => .unseen, held := fun _ => false
    res := fun _ _ => none, toCache := fun _ _ => false, toCore := fun _ _ => false
    buf := fun _ _ => 0, fired := fun _ => false, wback := fun _ _ => false
    marked := fun _ => false, updd := fun _ => false, need := fun _ => false
    gone := fun _ => false, dany := false, disc := false }

/-- An empty cache over a core volume full of zeros. -/
@[simp] def a0 : St Nat :=
  { core := fun _ _ => 0, cache := fun _ _ => 0, map := fun _ => none
    valid := fun _ _ => false, dirty := fun _ _ => false, dmap := fun _ => none
    ddirty := fun _ _ => false, req := fun _ => idle }

/-- The monitor at the start. -/
@[simp] def m0 : Mon Nat :=
  { wr := fun _ _ _ => false, rd := fun _ _ _ => false, ok := fun _ _ v => v = 0
    fresh := fun _ _ v => v = 0, exp := fun _ _ _ _ => True }

theorem init0 : Init a0 m0 :=
  ⟨fun _ => rfl, fun _ _ => rfl, fun _ _ => rfl, fun _ _ => rfl, fun _ => rfl,
    fun _ _ _ => rfl, fun _ _ _ => rfl, fun _ _ _ => Iff.rfl, fun _ _ _ => Iff.rfl⟩

/-- Checks the guard of one step of a concrete run. -/
macro "gd" : tactic => `(tactic| first
  | rfl
  | decide
  | (simp [idle, upd_apply, upd2_apply, Eng.isRd, Eng.isWr, Eng.lockOk,
    Req.ready, St.noDirty, St.hit, St.refs, St.holds, St.setReq, Req.fresh, Req.done]; done)
  | (intro j; rcases j with _ | _ | _ | _ | _ | _ | j <;> simp [idle, upd_apply, upd2_apply, Eng.isRd, Eng.isWr, Eng.lockOk,
    Req.ready, St.noDirty, St.hit, St.refs, St.holds, St.setReq, Req.fresh, Req.done] <;> done)
  | (intro j; rcases j with _ | _ | _ | _ | _ | _ | j <;> simp [idle, upd_apply, upd2_apply, Eng.isRd, Eng.isWr, Eng.lockOk,
    Req.ready, St.noDirty, St.hit, St.refs, St.holds, St.setReq, Req.fresh, Req.done] <;> grind)
  | (simp [idle, upd_apply, upd2_apply, Eng.isRd, Eng.isWr, Eng.lockOk,
    Req.ready, St.noDirty, St.hit, St.refs, St.holds, St.setReq, Req.fresh, Req.done]; grind))

/-- Checks that status bits are those without the sectors of a request. -/
macro "gp" : tactic => `(tactic| (
  intro l t
  simp [idle, upd_apply, St.setReq, Req.fresh]
  try grind))

end Verif.Engine
