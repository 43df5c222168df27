import Verif.Props.Packages
import Verif.Props.Igp

/-! # C30 for the listings of routes and of gas amounts -/

namespace Hpl

open Spec

/-- **C30** (routes). After any history of a contract with routes, reading the listing of routes page by page, with pages of 1 to 30
entries or of the default size, in either order, gives each domain the owner ever wrote about once, with what the owner wrote last
(nothing, if that cleared the route), in order of the domains, and no others. -/
theorem C30_routes {τ : Type} [DecidableEq τ] (o0 : Addr) (h : List (OwnedCall (Router.Msg τ))) (limit : Option UInt32)
    (order : Option Order) (hl : ∀ l, limit = some l → 1 ≤ l ∧ l ≤ 30) :
    ∃ n0, ∀ n, n0 ≤ n → ∃ r, followPages (fun start => Router.getRoutes (routerAfter o0 h).2 start limit order) n none = some r ∧
      (match order.getD .asc with
        | .asc => (r.map (·.1)).Pairwise (· < ·)
        | .desc => (r.map (·.1)).Pairwise (· > ·)) ∧
      ∀ d x, (d, x) ∈ r ↔ lastAbout d (routeWrites (Ownable.init o0) h) = some x := by
  refine ⟨(routerAfter o0 h).2.entries.length + 1, fun n hn => ?_⟩
  obtain ⟨r, h1, h2, h3⟩ := (C30_pagination (routerAfter o0 h).2 order).1 limit hl n hn
  refine ⟨r, h1, h2, fun d x => ?_⟩
  rw [h3]
  unfold routerAfter
  rw [run_routerStep, get_setRoutes]
  simp

open Igp in
/-- **C30** (gas amounts). The same for the paymaster's listing of gas amounts: exactly the domains for which the owner set an
amount and did not unset it since, with the amount set last. -/
theorem C30_gas_amounts {C : Codec} {lower : Char → Bool} {valid : Addr → Bool} {sup : Bool} {hrp token : String}
    {owner ben : Addr} {dg : Nat} {s0 : Ownable.State × Igp.State}
    (h0 : Igp.instantiate lower valid sup hrp owner token ben dg = .ok s0) (h : List (ExecCall IgpEnv Igp.Msg))
    (limit : Option UInt32) (order : Option Order) (hl : ∀ l, limit = some l → 1 ≤ l ∧ l ≤ 30) :
    ∃ n0, ∀ n, n0 ≤ n → ∃ r,
      followPages (fun start => Igp.listGasForDomains (run (stepOf (Igp.execute C)) s0 h) start limit order) n none = some r ∧
      (match order.getD .asc with
        | .asc => (r.map (·.1)).Pairwise (· < ·)
        | .desc => (r.map (·.1)).Pairwise (· > ·)) ∧
      ∀ d g, (d, g) ∈ r ↔ lastFor d ((igpCalls owner h).flatMap (fun x => gasUpdates x.2)) = some (some g) := by
  refine ⟨(run (stepOf (Igp.execute C)) s0 h).2.gasFor.entries.length + 1, fun n hn => ?_⟩
  obtain ⟨r, h1, h2, h3⟩ := (C30_pagination (run (stepOf (Igp.execute C)) s0 h).2.gasFor order).1 limit hl n hn
  refine ⟨r, h1, h2, fun d g => ?_⟩
  rw [h3, ← (C57_gas_settings h0 h).2.1 d g]
  rw [getGasForDomain, getGasForDomain]
  cases (run (stepOf (Igp.execute C)) s0 h).2.gasFor.get d <;> simp

/-- Three routes in pages of two, one of them cleared. -/
example : followPages (fun start => Router.getRoutes (routerAfter "o" [⟨fun _ => true, "o", .inr (.setRoutes
      [(5, some "a"), (2, some "b"), (9, some "c"), (2, none)])⟩]).2 start (some 2) none) 3 none =
    some [(2, none), (5, some "a"), (9, some "c")] := by decide +kernel

/-- Gas amounts from the last, in pages of one. -/
example : followPages (fun start => Igp.listGasForDomains (run (stepOf (Igp.execute Bech.codec)) Ex.igp0
      (Ex.igpHistory ++ [⟨Ex.igpEnv, "o", [], .inr (.setGasForDomain [(7, 9), (5, 8)])⟩]))
      start (some 1) (some .desc)) 4 none = some [(7, 9), (5, 8), (1, 70)] := by decide +kernel

end Hpl
