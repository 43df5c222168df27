import Verif.Examples.Mailbox
import Verif.Spec.HookSystem

/-! # A concrete chain with a tree of hooks -/

namespace Hpl.Ex

open HookSystem Spec

/-- The required hook routes to a merkle tree, the default hook is an aggregate of a gas paymaster, a pausable hook and
another aggregate, which charges a toll twice. -/
def hookContracts : Contracts := fun a =>
  if a = "req" then some (.fallback (Ownable.init alice, ⟨OMap.empty, some "tree"⟩))
  else if a = "tree" then some (.merkle ⟨"mailbox", Merkle.default (List.replicate 32 [])⟩)
  else if a = "hook" then some (.aggregate (Ownable.init alice, ["igp", "gate", "inner"]))
  else if a = "igp" then some (.igp (Ownable.init alice,
    ⟨"osmo", "uosmo", 100, OMap.empty, alice, Router.setRoutes OMap.empty [(1, some "oracle")]⟩))
  else if a = "oracle" then some (.oracle (Ownable.init alice, OMap.empty.insert 1 ⟨20000000000, 3⟩))
  else if a = "gate" then some (.pausable (Ownable.init alice, false))
  else if a = "inner" then some (.aggregate (Ownable.init alice, ["toll", "toll"]))
  else if a = "toll" then some (.fee (Ownable.init alice, ⟨"uatom", 7⟩))
  else none

/-- The chain itself. -/
def hookWorld : World := ⟨toyHash, Bech.codec, fun _ => true, "mailbox", 7, 5⟩

/-- Alice has some coins. -/
def hookSys : Sys := ⟨s1, hookContracts, fun a _ => if a = alice then 1000 else 0⟩

/-- The visits of the required hook. -/
def visitsReq : List Visit := [("tree", [])]

/-- The visits of the default hook. -/
def visitsHook : List Visit :=
  [("igp", [⟨"uosmo", 600⟩]), ("gate", []), ("toll", [⟨"uatom", 7⟩]), ("toll", [⟨"uatom", 7⟩])]

theorem hookSys_req : Settles hookWorld hookContracts [] message.encode "req" visitsReq := by
  refine .route (x := "tree") (.fallback (f := "tree") rfl rfl (by decide +kernel)) (.merkle rfl rfl) ?_
  decide

theorem hookSys_hook
    (hC : ∀ raw : Bytes, raw.length = 20 ∨ raw.length = 32 → ∃ a, Bech.codec.enc "osmo" raw = some a) :
    Settles hookWorld hookContracts [] message.encode "hook" visitsHook := by
  refine .aggregate [("igp", [("igp", [⟨"uosmo", 600⟩])]), ("gate", [("gate", [])]),
    ("inner", [("toll", [⟨"uatom", 7⟩]), ("toll", [⟨"uatom", 7⟩])])] rfl rfl ?_
  simp only [List.mem_cons, List.not_mem_nil, or_false, forall_eq_or_imp, forall_eq]
  refine ⟨.igp rfl ?_ (by unfold RefundFine; decide) hC, .pausable rfl rfl, ?_⟩
  · have : (Igp.quoteDispatch (oracleAt hookContracts) (Ownable.init alice,
        ⟨"osmo", "uosmo", 100, OMap.empty, alice, Router.setRoutes OMap.empty [(1, some "oracle")]⟩) []
          message.encode).toOption = some [⟨"uosmo", 600⟩] := by decide +kernel
    revert this
    generalize Igp.quoteDispatch _ _ _ _ = y
    intro this
    cases y with
    | ok x => cases this; rfl
    | error e => cases this
  · refine .aggregate [("toll", [("toll", [⟨"uatom", 7⟩])]), ("toll", [("toll", [⟨"uatom", 7⟩])])] rfl rfl ?_
    simp only [List.mem_cons, List.not_mem_nil, or_false, forall_eq_or_imp, forall_eq]
    exact ⟨.fee (s := (Ownable.init alice, ⟨"uatom", 7⟩)) rfl (by decide),
      .fee (s := (Ownable.init alice, ⟨"uatom", 7⟩)) rfl (by decide)⟩

end Hpl.Ex
