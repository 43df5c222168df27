import Verif.Props.Deploy
import Verif.Props.TokenNetSecurity
import Verif.Props.Relay

/-! # Deployed networks guarded by honest validators: C88 -/

namespace Hpl.Deploy

open Spec
open Bridge (Setup Out)

variable {κ : Type} [DecidableEq κ]

/-- Guarded security modules are sound, seen from the chains with their tokens. -/
theorem honest_of_validated {H : Bytes → Bytes} (hH : ∀ x, (H x).length = 32) {R : Recover} {P : κ → Setup}
    {r : κ → Bytes} {d : κ → UInt32} {M : κ → Warp.Mode} {world : TokenLog κ → κ → Addr → Option IsmContract}
    {honest : Bytes → Prop} {signed : TokenLog κ → Bytes → Attestation → Prop} {s0 : κ → TokenWorld.Chain}
    {txs : List (List (Tx.Act (TokenWorld.Act κ)))} {Q : Cw20.Init → Prop}
    (hp : Placed P r d s0) (hd : ∀ x, Deployed Q (P x) (M x) (s0 x))
    (hv : ValidatedNet H R P r d world honest signed (view P M s0)
      (viewLog P M (Tx.history (TokenWorld.step H P) s0 txs).2)) :
    HonestNet P r d (viewLog P M (Tx.history (TokenWorld.step H P) s0 txs).2) := by
  obtain ⟨h1, h2, _⟩ := C87_deployment_in_order hp hd
  exact TokenNet.honest_of_validated hH h1 (TokenWorld.chain_sim h2 (Tx.history_chain _ _ _)).1 hv

/-- **C88.** In a network of freshly deployed routers without initial balances, if at each delivery the module responsible
for the router is guarded for the origin, honest validators attest only announced messages, nobody forges their
signatures or breaks the hash, and recipients have at most 32 bytes: after every execution, in which anybody may use the
tokens as they like, what any accounts hold of bridged tokens, together with all transfers in transit, is not more than
what the collateral routers hold. -/
theorem C88_validators_back_holders [Fintype κ] {H : Bytes → Bytes} (hH : ∀ x, (H x).length = 32) {R : Recover}
    (P : κ → Setup) (r : κ → Bytes) (d : κ → UInt32) (M : κ → Warp.Mode)
    (world : TokenLog κ → κ → Addr → Option IsmContract) (honest : Bytes → Prop)
    (signed : TokenLog κ → Bytes → Attestation → Prop) (s0 : κ → TokenWorld.Chain)
    (txs : List (List (Tx.Act (TokenWorld.Act κ)))) (A : κ → Finset Addr)
    (hp : Placed P r d s0) (hd : ∀ x, Deployed NoInitial (P x) (M x) (s0 x))
    (hv : ValidatedNet H R P r d world honest signed (view P M s0)
      (viewLog P M (Tx.history (TokenWorld.step H P) s0 txs).2))
    (hr : RecipientsNet (· ≤ 32) (viewLog P M (Tx.history (TokenWorld.step H P) s0 txs).2)) :
    bridgedHoldings P M (Tx.history (TokenWorld.step H P) s0 txs).1 A +
        inTransit r (viewLog P M (Tx.history (TokenWorld.step H P) s0 txs).2) ≤
      lockedCollateral P M (Tx.history (TokenWorld.step H P) s0 txs).1 :=
  C87_backed_from_deployment_partial H P r d M s0 txs A hp hd (honest_of_validated hH hp hd hv) hr

/-- **C88.** In such a network, a transfer of `amount` (not zero) to an account of 32 bytes announced one message for a
chain `z` of the network. As long as it was not delivered, a relayer who can bring the module then responsible for the
router of `z` to approve (`Can`: with enough signatures of validators, through any nesting of modules) has metadata with
which anybody delivers it, and the account has `amount` tokens more than before. As in C85 the router of `z` must know
the sending router, and create tokens or be the only one holding collateral; or another message with the same
hash was delivered before. -/
theorem C88_attested_transfers_arrive [Fintype κ] {H : Bytes → Bytes} (hH : ∀ x, (H x).length = 32) {R : Recover}
    (hR : ∀ h s v p, R h s v = some p → p ≠ [])
    (P : κ → Setup) (r : κ → Bytes) (d : κ → UInt32) (M : κ → Warp.Mode)
    (world : TokenLog κ → κ → Addr → Option IsmContract) (honest : Bytes → Prop)
    (signed : TokenLog κ → Bytes → Attestation → Prop) (s0 : κ → TokenWorld.Chain)
    (txs : List (List (Tx.Act (TokenWorld.Act κ))))
    (hp : Placed P r d s0) (hd : ∀ x, Deployed NoInitial (P x) (M x) (s0 x)) (htok : ∀ x, (P x).token ≠ (P x).mailbox)
    (hv : ValidatedNet H R P r d world honest signed (view P M s0)
      (viewLog P M (Tx.history (TokenWorld.step H P) s0 txs).2))
    (hr : RecipientsNet (· ≤ 32) (viewLog P M (Tx.history (TokenWorld.step H P) s0 txs).2))
    {x : κ} {c : ExecCall (Addr → Bool) Warp.Msg} {env : Mailbox.Env} {o : Out} {dest : UInt32} {recipient : Bytes}
    {amount : Nat} {hook : Option Addr} {md : Option Bytes}
    (he : (TokenWorld.Act.router x c env, o) ∈ (Tx.history (TokenWorld.step H P) s0 txs).2)
    (hm : c.msg = .inr (.transferRemote dest recipient amount hook md)) (hlen : recipient.length = 32) (hne : amount ≠ 0) :
    ∃ z m, dest = d z ∧ o.mailbox.flatMap dispatchedIn = [m] ∧
      ∀ (now : Addr → Option IsmContract) (e : Mailbox.Env) (sender ism dst : Addr) (n : Nat),
        sender ≠ (P z).router →
        m ∉ deliveredAt z (viewLog P M (Tx.history (TokenWorld.step H P) s0 txs).2) →
        (s0 z).box.deliveries.has (H m) = false →
        ((Tx.history (TokenWorld.step H P) s0 txs).1 z).box.config.defaultIsm ≠ none →
        ResponsibleIsm e ((Tx.history (TokenWorld.step H P) s0 txs).1 z).box (P z).router ism →
        Can H R now m ism true n →
        bech32Encode (P z).codec ((Tx.history (TokenWorld.step H P) s0 txs).1 z).router.2.hrp recipient = .ok dst →
        Router.getRoute ((Tx.history (TokenWorld.step H P) s0 txs).1 z).router.2.routes (d x) = some (r x) →
        (M z = .collateral → ∀ y, M y = .collateral → y = z) →
        (M z = .bridged → (P z).native = false →
          lockedCollateral P M (Tx.history (TokenWorld.step H P) s0 txs).1 < 2 ^ 128) →
        ∃ metadata depth, metadata.length ≤ n ∧ ∀ k,
          (∃ s' o', TokenWorld.step H P (Tx.history (TokenWorld.step H P) s0 txs).1 (.mailbox z
              ⟨{ e with verify := askIsm H R now (depth + k) }, sender, [], .process metadata m⟩) = .ok (s', o') ∧
            (dst ≠ (P z).router → holding (P z) (s' z) dst =
              holding (P z) ((Tx.history (TokenWorld.step H P) s0 txs).1 z) dst + amount) ∧
            ∀ a, a ≠ dst → a ≠ (P z).router → holding (P z) (s' z) a =
              holding (P z) ((Tx.history (TokenWorld.step H P) s0 txs).1 z) a) ∨
          ∃ m' ∈ deliveredAt z (viewLog P M (Tx.history (TokenWorld.step H P) s0 txs).2), m' ≠ m ∧ H m' = H m := by
  obtain ⟨h1, h2, h3⟩ := C87_deployment_in_order hp hd
  have h0 : bridgedSupply P M s0 ≤ lockedCollateral P M s0 := by
    have hf : ∀ A, bridgedHoldings P M s0 A + _ ≤ _ := fun A => C87_backed_from_deployment_partial H P r d M s0 [] A hp hd
      ⟨by simp [Tx.history, viewLog], by simp [Tx.history, viewLog], by simp [Tx.history, viewLog],
        by simp [Tx.history, viewLog]⟩ (by simp [RecipientsNet, Tx.history, viewLog])
    choose T hT1 hT2 using fun x => (h3 x).1
    refine Nat.le_trans (Nat.le_of_eq ?_) (Nat.le_trans (Nat.le_add_right _ _) (hf T))
    unfold bridgedSupply bridgedHoldings
    exact Finset.sum_congr rfl (fun x _ => by rw [hT2 x])
  obtain ⟨z, m, k1, k2, k3⟩ := TokenWorld.C85_tokens_arrive H P r d M s0 txs h1 h2 h3 htok h0
    (honest_of_validated hH hp hd hv) hr he hm hlen hne
  refine ⟨z, m, k1, k2, fun now e sender ism dst n a1 a2 a3 a4 a5 a6 a7 a8 a9 a10 => ?_⟩
  obtain ⟨md, depth, b, b1, b2, b3⟩ := C76_relayable_partial hH hR a6
  cases b2 rfl
  refine ⟨md, depth, b1, fun k => ?_⟩
  rcases k3 ⟨{ e with verify := askIsm H R now (depth + k) }, sender, [], .process md m⟩ md ism dst rfl rfl a1 a2 a3 a4 a5
    (b3 k) a7 a8 a9 a10 with ⟨s', o', c1, _, c2, c3⟩ | h
  · exact .inl ⟨s', o', c1, c2, c3⟩
  · exact .inr h

/-! A concrete case: freshly deployed routers are enrolled and alice sends 100 tokens from chain 0 to chain 1. Message, hash,
validator and metadata are those of the example of C64. -/

namespace Guard

open ExDeploy
open Ex.Net (rid dom addr hub play playable after after_ok honest_of honestFrom recipients_of recipientsOf history_play)
open TokenWorld (Act)
open Bridge.Ex (vHash vHash_length vHash_inj vRelay vMsg vRecover vWorld vAttestation vDigest vHonest vMeta)

/-- What is announced. -/
def acts : List (Act (Fin 3)) := [enrol 0, enrol 1, send Ex.alice 0 1 Ex.aliceId 100]

/-- With the delivery. -/
def delivered : List (Act (Fin 3)) := acts ++ [.mailbox 1 vRelay]

/-- After the announcement. -/
def first : (Fin 3 → TokenWorld.Chain) × List (Tx.Entry (Act (Fin 3)) Out) :=
  play (TokenWorld.step vHash setup) (start []) acts

/-- After the delivery. -/
def whole : (Fin 3 → TokenWorld.Chain) × List (Tx.Entry (Act (Fin 3)) Out) :=
  play (TokenWorld.step vHash setup) (start []) delivered

theorem deploy_ok : (ExDeploy.cw20 []).toOption.isSome = true := by decide +kernel

theorem facts : playable (TokenWorld.step vHash setup) (start []) delivered = true ∧
    (∀ n ∈ recipientsOf (viewLog setup hub whole.2), n ≤ 32) := by decide +kernel

theorem holdings : bridgedHoldings setup hub whole.1 (fun _ => {Ex.alice}) = 100 ∧ lockedCollateral setup hub whole.1 = 100 := by
  decide +kernel

theorem first_facts : (playable (TokenWorld.step vHash setup) (start []) acts = true ∧
    (∀ n ∈ recipientsOf (viewLog setup hub first.2), n ≤ 32)) ∧ vMsg ∈ announcedAt 0 (viewLog setup hub first.2) ∧
    ((first.2[2]?).map (fun e => e.2.mailbox.flatMap dispatchedIn)) = some [vMsg] ∧
    (first.1 1).box.config.defaultIsm = some "ism" ∧
    vMsg ∉ deliveredAt 1 (viewLog setup hub first.2) ∧ (start [] 1).box.deliveries.has (vHash vMsg) = false ∧
    bech32Encode (setup 1).codec (first.1 1).router.2.hrp Ex.aliceId = .ok Ex.alice ∧
    Router.getRoute (first.1 1).router.2.routes (dom 0) = some (rid 0) ∧ lockedCollateral setup hub first.1 < 2 ^ 128 := by
  decide +kernel

theorem first_eq : Tx.history (TokenWorld.step vHash setup) (start []) (acts.map (fun a => [.call a []])) = first :=
  history_play first_facts.1.1

theorem whole_eq : Tx.history (TokenWorld.step vHash setup) (start [])
    (delivered.map (fun a => [.call a []])) = whole := history_play facts.1

/-- What the acts answer. -/
def outs (k : Nat) : Out := ((whole.2[k]?).map (·.2)).getD {}

theorem first_log : viewLog setup hub first.2 = [(.router 0 ⟨fun _ => true, "o", [], .inr (.router (.setRoutes (Ex.Net.routes 0)))⟩
      Ex.freeEnv, outs 0), (.router 1 ⟨fun _ => true, "o", [], .inr (.router (.setRoutes (Ex.Net.routes 1)))⟩
      Ex.freeEnv, outs 1), (.router 0 ⟨fun _ => true, Ex.alice, [⟨(setup 0).token, 100⟩],
    .inr (.transferRemote (dom 1) Ex.aliceId 100 none none)⟩ Ex.freeEnv, outs 2)] := rfl

theorem whole_log : viewLog setup hub whole.2 = viewLog setup hub first.2 ++ [(.mailbox 1 vRelay, outs 3)] := rfl

theorem at_end {a b c : TokenNet.Act (Fin 3) × Out} {o : Out} {pre post : TokenLog (Fin 3)} {x : Fin 3} {call : Mailbox.Call}
    {out : Out} (h1 : ∀ x c, a.1 ≠ .mailbox x c) (h2 : ∀ x c, b.1 ≠ .mailbox x c) (h3 : ∀ x d, c.1 ≠ .mailbox x d)
    (h : [a, b, c] ++ [(.mailbox 1 vRelay, o)] = pre ++ (TokenNet.Act.mailbox x call, out) :: post) :
    pre = [a, b, c] ∧ x = 1 ∧ call = vRelay := by
  match pre with
  | [] => cases h; exact absurd rfl (h1 _ _)
  | [_] => cases h; exact absurd rfl (h2 _ _)
  | [_, _] => cases h; exact absurd rfl (h3 _ _)
  | [_, _, _] => cases h; exact ⟨rfl, rfl, rfl⟩
  | _ :: _ :: _ :: _ :: t =>
    have := congrArg List.length h
    simp at this

theorem routes_ok (x : Fin 3) : ∀ o q, (o, some q) ∈ Spec.remoteUpdates (.router (.setRoutes (Ex.Net.routes x))) →
    ∃ y, o = dom y ∧ q = rid y := by
  have : ∀ p ∈ Spec.remoteUpdates (.router (.setRoutes (Ex.Net.routes x))), ∃ y, p = (dom y, some (rid y)) := by
    revert x
    decide +kernel
  intro o q h
  obtain ⟨y, hy⟩ := this _ h
  cases hy
  exact ⟨y, rfl, rfl⟩

/-- What the validator signs. -/
def signed (pre : TokenLog (Fin 3)) (v : Bytes) (a : Attestation) : Prop :=
  v = zeros 20 ∧ a = vAttestation ∧ vMsg ∈ announcedAt 0 pre

theorem truthful (pre : TokenLog (Fin 3)) (v : Bytes) (_ : vHonest v) :
    Truthful (fun o b => ∀ y, o = dom y → b ∈ announcedAt y pre) (signed pre) v := by
  intro o tree root i b hs
  obtain ⟨_, h, h'⟩ := hs
  cases h
  refine ⟨by decide, by decide, fun y ho => ?_⟩
  have : y = 0 := by
    revert ho
    revert y
    decide
  subst this
  exact h'

theorem contracts (pre : TokenLog (Fin 3)) (x : Fin 3) (a : Addr) (k : IsmContract)
    (h : TokenNet.Guard.world pre x a = some k) : Reachable k := by
  unfold TokenNet.Guard.world vWorld at h
  split at h
  · cases h; exact ⟨_, _, rfl⟩
  · cases h

/-- Before the delivery. -/
theorem first_validated : ValidatedNet vHash vRecover setup rid dom TokenNet.Guard.world vHonest signed
    (view setup hub (start [])) (viewLog setup hub first.2) := by
  rw [first_log]
  generalize outs 0 = o0
  generalize outs 1 = o1
  generalize outs 2 = o2
  refine ⟨?_, ?_, ?_, contracts, truthful, ?_, ?_⟩
  · intro e he x c env h
    simp only [List.mem_cons, List.not_mem_nil, or_false] at he
    rcases he with rfl | rfl | rfl <;> cases h <;> decide
  · intro e he x c env m h hm o q hq
    simp only [List.mem_cons, List.not_mem_nil, or_false] at he
    rcases he with rfl | rfl | rfl <;> cases h <;> cases hm
    · exact routes_ok _ _ _ hq
    · exact routes_ok _ _ _ hq
    · simp [remoteUpdates] at hq
  · intro e he x c q h hq
    simp only [List.mem_cons, List.not_mem_nil, or_false] at he
    rcases he with rfl | rfl | rfl <;> cases h
  · intro pre x c out post md m s y hl hcm hch ho hs hr
    have hmem : (TokenNet.Act.mailbox x c, out) ∈ pre ++ (TokenNet.Act.mailbox x c, out) :: post := by simp
    rw [← hl] at hmem
    simp at hmem
  · intro pre x c out post md m y hl hcm ho
    have hmem : (TokenNet.Act.mailbox x c, out) ∈ pre ++ (TokenNet.Act.mailbox x c, out) :: post := by simp
    rw [← hl] at hmem
    simp at hmem

omit [DecidableEq κ] in
theorem view_box {P : κ → Setup} {M : κ → Warp.Mode} {s : κ → TokenWorld.Chain} {x : κ} {a : Option Addr}
    (h : (s x).box.config.defaultIsm = a) : (view P M s x).box.config.defaultIsm = a := h

theorem view_chain {H : Bytes → Bytes} {P : κ → Setup} {M : κ → Warp.Mode} {s0 : κ → TokenWorld.Chain}
    {txs : List (List (Tx.Act (Act κ)))} {x : (κ → TokenWorld.Chain) × List (Tx.Entry (Act κ) Out)}
    (ho : OwnTokens P M s0) (h : Tx.history (TokenWorld.step H P) s0 txs = x) :
    Tx.Chain (TokenNet.step H P) (view P M s0) (viewLog P M x.2) (view P M x.1) := by
  subst h
  exact (TokenWorld.chain_sim ho (Tx.history_chain _ _ _)).1

theorem first_chain : Tx.Chain (TokenNet.step vHash setup) (view setup hub (start [])) (viewLog setup hub first.2)
    (view setup hub first.1) :=
  view_chain (C87_deployment_in_order (start_placed []) (start_deployed (Q := NoInitial) rfl deploy_ok)).2.1 first_eq

/-- With the delivery. -/
theorem whole_validated : ValidatedNet vHash vRecover setup rid dom TokenNet.Guard.world vHonest signed
    (view setup hub (start [])) (viewLog setup hub whole.2) := by
  have hann := first_facts.2.1
  have hgd := TokenNet.Guard.guards
  have hbox : (view setup hub first.1 1).box.config.defaultIsm = some "ism" :=
    view_box first_facts.2.2.2.1
  have hchain := first_chain
  obtain ⟨v1, v2, v3, -, -, -, -⟩ := first_validated
  rw [whole_log]
  rw [first_log] at *
  generalize view setup hub first.1 = t at *
  generalize outs 0 = o0 at *
  generalize outs 1 = o1 at *
  generalize outs 2 = o2 at *
  generalize outs 3 = o3 at *
  refine ⟨?_, ?_, ?_, contracts, truthful, ?_, ?_⟩
  · intro e he
    rcases List.mem_append.1 he with he | he
    · exact v1 e he
    · obtain rfl := List.mem_singleton.1 he
      nofun
  · intro e he
    rcases List.mem_append.1 he with he | he
    · exact v2 e he
    · obtain rfl := List.mem_singleton.1 he
      nofun
  · intro e he
    rcases List.mem_append.1 he with he | he
    · exact v3 e he
    · obtain rfl := List.mem_singleton.1 he
      intro x c q h hq
      cases h
      cases hq
  · intro pre x c out post md m s y hl hcm hch ho hs hr
    obtain ⟨rfl, rfl, rfl⟩ := at_end (by intro _ _ h; cases h) (by intro _ _ h; cases h) (by intro _ _ h; cases h) hl
    cases hcm
    cases TokenNet.Guard.origin_zero ho
    refine ⟨⟨1, rfl⟩, fun ism hi => ?_⟩
    obtain rfl := (Prod.mk.inj ((Tx.history_of_chain hch).symm.trans (Tx.history_of_chain hchain))).1
    rcases hi with hi | ⟨_, hi⟩
    · cases hi
    · rw [hbox] at hi
      cases hi
      exact hgd
  · intro pre x c out post md m y hl hcm ho
    obtain ⟨rfl, rfl, rfl⟩ := at_end (by intro _ _ h; cases h) (by intro _ _ h; cases h) (by intro _ _ h; cases h) hl
    cases hcm
    cases TokenNet.Guard.origin_zero ho
    constructor
    · rintro ⟨v, part, sig, hv, _, _, hby, hno⟩
      refine hno vAttestation ⟨hv, rfl, hann⟩ ?_
      obtain ⟨_, _, _, _, _, _, hrec, _⟩ := hby
      unfold vRecover at hrec
      split at hrec
      · rename_i hh; rw [hh]; exact vDigest
      · cases hrec
    · rintro ⟨v, a, part, _, ⟨_, rfl, _⟩, _, x, hx, y, _, hc⟩
      exact vHash_inj hx hc

/-- Alice's tokens on chain 1 are backed. -/
example : (∀ x, (vHash x).length = 32) ∧ Placed setup rid dom (start []) ∧
    (∀ x, Deployed NoInitial (setup x) (hub x) (start [] x)) ∧
    let h := Tx.history (TokenWorld.step vHash setup) (start []) (delivered.map (fun a => [.call a []]))
    ValidatedNet vHash vRecover setup rid dom TokenNet.Guard.world vHonest signed (view setup hub (start []))
      (viewLog setup hub h.2) ∧ RecipientsNet (· ≤ 32) (viewLog setup hub h.2) ∧
    bridgedHoldings setup hub h.1 (fun _ => {Ex.alice}) = 100 ∧ lockedCollateral setup hub h.1 = 100 := by
  refine ⟨vHash_length, start_placed [], start_deployed rfl deploy_ok, ?_⟩
  rw [whole_eq]
  exact ⟨whole_validated, recipients_of facts.2, holdings⟩

/-- The signature of the one validator is enough. -/
theorem approvable : Can vHash vRecover (TokenNet.Guard.world [] 1) vMsg "ism" true 133 := by
  refine .signed (s := (multisigAfter "owner" [⟨fun _ => true, "owner", .inr (.setValidators 1 1 [zeros 20])⟩]).2)
    (m := (Message.decode vMsg).toOption.getD ⟨0, 0, 0, [], 0, [], []⟩) (t := 1) (vs := [zeros 20]) (tree := zeros 32)
    (root := zeros 32) (index := 0) (q := [zeros 20]) (fun _ => zeros 64 ++ [27]) (by simp [TokenNet.Guard.world, vWorld])
    (by decide +kernel) (by decide) (wireFormat_of_decode (get_ok (by decide +kernel))) (by decide) (by decide) (by decide) rfl ?_
    (by decide)
  intro v hv
  obtain rfl := List.mem_singleton.1 hv
  exact ⟨by decide +kernel, by decide +kernel, 27, 0, [4], by decide +kernel, by decide +kernel, by decide +kernel, by decide +kernel,
    by decide +kernel, by decide +kernel⟩

/-- Before the delivery everything is as required, and alice's account on chain 1 can get the 100 tokens. -/
example : (∀ x, (vHash x).length = 32) ∧ (∀ h s v p, vRecover h s v = some p → p ≠ []) ∧
    (∀ x, (setup x).token ≠ (setup x).mailbox) ∧
    let h := Tx.history (TokenWorld.step vHash setup) (start []) (acts.map (fun a => [.call a []]))
    ValidatedNet vHash vRecover setup rid dom TokenNet.Guard.world vHonest signed (view setup hub (start []))
      (viewLog setup hub h.2) ∧ RecipientsNet (· ≤ 32) (viewLog setup hub h.2) ∧
    ((h.2[2]?).map (fun e => e.2.mailbox.flatMap dispatchedIn)) = some [vMsg] ∧
    vMsg ∉ deliveredAt 1 (viewLog setup hub h.2) ∧ (start [] 1).box.deliveries.has (vHash vMsg) = false ∧
    ResponsibleIsm Ex.freeEnv (h.1 1).box (setup 1).router "ism" ∧
    Can vHash vRecover (TokenNet.Guard.world [] 1) vMsg "ism" true 133 ∧
    bech32Encode (setup 1).codec (h.1 1).router.2.hrp Ex.aliceId = .ok Ex.alice ∧
    Router.getRoute (h.1 1).router.2.routes (dom 0) = some (rid 0) ∧ lockedCollateral setup hub h.1 < 2 ^ 128 := by
  refine ⟨vHash_length, ?_, by decide +kernel, ?_⟩
  · intro h s v p hh
    unfold vRecover at hh
    split at hh
    · cases hh; exact nofun
    · cases hh
  · rw [first_eq]
    obtain ⟨⟨_, h1⟩, _, h2, h3, h4, h5, h6⟩ := first_facts
    exact ⟨first_validated, recipients_of h1, h2, h4, h5, .inr ⟨rfl, h3⟩, approvable, h6⟩

end Guard

end Hpl.Deploy
