import Verif.Model.Hooks
import Verif.Model.Run

/-! # What the owner told a contract -/

namespace Hpl

/-- The state part of an entry point. -/
def stepOf {σ ι ρ : Type} (exec : σ → ι → Res (σ × ρ)) (s : σ) (c : ι) : Res σ := (exec s c).map Prod.fst

namespace Spec

/-- The configuration messages of a history that count: those sent by the account that owns the contract at that
moment, each with the answers of the world at that moment. `cfg` says which messages are about configuration. -/
def ownerCalls {ε μ κ : Type} (valid : ε → Addr → Bool) (cfg : μ → Option κ) (own : Ownable.State) :
    List (ExecCall ε μ) → List (ε × κ)
  | [] => []
  | c :: t =>
    match c.msg with
    | .inl m =>
      match Ownable.handle (valid c.env) own c.sender m with
      | .ok own' => ownerCalls valid cfg own' t
      | .error _ => ownerCalls valid cfg own t
    | .inr m =>
      match cfg m with
      | some k => (if own.owner = some c.sender then [(c.env, k)] else []) ++ ownerCalls valid cfg own t
      | none => ownerCalls valid cfg own t

/-- The last entry of a list of updates that is about key `k`: `none` if there is none, `some none` if it removes. -/
def lastFor {κ ν : Type} [DecidableEq κ] (k : κ) (l : List (κ × Option ν)) : Option (Option ν) :=
  (l.reverse.find? (fun x => x.1 = k)).map (·.2)

end Spec

end Hpl
