import Verif.Model.Packages

/-! # Contracts made of an ownable part and one other package

Execution entry points dispatch an ownership message to `hpl_ownable::handle` and a package message to that package,
over the same storage (disjoint keys); e.g. `/repo/contracts/isms/pausable/src/lib.rs` 60-70 (pausable) and
`/repo/contracts/hooks/routing/src/lib.rs` 65-76 (router). -/

namespace Hpl

/-- One call to such a contract. `valid` is the address validation of the chain at the time of the call. -/
structure OwnedCall (μ : Type) where
  valid : Addr → Bool
  sender : Addr
  msg : Ownable.Msg ⊕ μ

/-- The execution entry point. -/
def ownedStep {σ μ : Type}
    (part : (Addr → Bool) → Ownable.State → σ → Addr → μ → Res σ)
    (s : Ownable.State × σ) (c : OwnedCall μ) : Res (Ownable.State × σ) :=
  match c.msg with
  | .inl m => do
    let o ← Ownable.handle c.valid s.1 c.sender m
    return (o, s.2)
  | .inr m => do
    let p ← part c.valid s.1 s.2 c.sender m
    return (s.1, p)

/-- `/repo/contracts/isms/pausable/src/lib.rs` 60-70, `/repo/contracts/hooks/pausable/src/lib.rs` 62-80 (the part that
writes). -/
def pausableStep : Ownable.State × Bool → OwnedCall Pausable.Msg → Res (Ownable.State × Bool) :=
  ownedStep (fun _ => Pausable.handle)

/-- `/repo/contracts/hooks/routing/src/lib.rs` 65-76 (the part that writes). -/
def routerStep {τ : Type} :
    Ownable.State × Router.State τ → OwnedCall (Router.Msg τ) →
      Res (Ownable.State × Router.State τ) :=
  ownedStep (fun _ => Router.handle)

/-- `/repo/contracts/warp/native/src/contract.rs` 96-101 (ownership and connection messages). -/
def connectionStep : Ownable.State × Connection.State → OwnedCall Connection.Msg →
    Res (Ownable.State × Connection.State) := ownedStep Connection.handle

end Hpl
