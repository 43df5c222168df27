import Verif.Spec.HookSystem
import Verif.Model.Isms

/-! # Arrangements of hooks and modules without an end -/

namespace Hpl.Spec

open HookSystem

/-- Hook `h` passes a post-dispatch of message `b` on to `m`. -/
inductive PassesTo (hooks : Contracts) (b : Bytes) (h m : Addr) : Prop where
  | member {s} (hs : hooks h = some (.aggregate s)) (hm : m ∈ s.2) : PassesTo hooks b h m
  | route (hm : RoutesTo hooks h (destOf b) (recipientOf b) m) : PassesTo hooks b h m

/-- From `h` message `b` is passed on without an end. -/
def EndlessHooks (hooks : Contracts) (b : Bytes) (h : Addr) : Prop :=
  ∃ f : ℕ → Addr, f 0 = h ∧ ∀ n, PassesTo hooks b (f n) (f (n + 1))

/-- Module `a` asks `b` about messages from `origin`, whatever it is given: it routes to `b`, or is an aggregate of which `b` has
the smallest address. -/
inductive Asks (world : Addr → Option IsmContract) (origin : UInt32) (a b : Addr) : Prop where
  | routing {s} (hs : world a = some (.routing s)) (hb : s.get origin = some b) : Asks world origin a b
  | aggregate {s} (hs : world a = some (.aggregate s)) (hb : b ∈ s.isms) (hl : ∀ c ∈ s.isms, b ≤ c) :
      Asks world origin a b

/-- From `a` the question is passed on without an end. -/
def EndlessModules (world : Addr → Option IsmContract) (origin : UInt32) (a : Addr) : Prop :=
  ∃ f : ℕ → Addr, f 0 = a ∧ ∀ n, Asks world origin (f n) (f (n + 1))

end Hpl.Spec
