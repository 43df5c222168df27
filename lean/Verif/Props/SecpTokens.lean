import Verif.Props.DeploySecurity
import Verif.Props.SecpRelay

/-! # C102: bridged tokens with keccak256 and secp256k1 -/

namespace Hpl

open Spec Secp
open Keccak (keccak256)
open Bridge (Setup Out)

variable {κ : Type} [DecidableEq κ]

namespace Spec

/-- As `ValidatedNet`, but nothing is said about forged signatures and collisions. -/
structure KeyedNet (norm : Bool) (P : κ → Setup) (r : κ → Bytes) (d : κ → UInt32)
    (world : TokenLog κ → κ → Addr → Option IsmContract) (honest : Bytes → Prop)
    (signed : TokenLog κ → Bytes → Attestation → Prop) (s0 : κ → Bridge.Chain) (log : TokenLog κ) : Prop where
  callers : ∀ e ∈ log, ∀ x c env, e.1 = .router x c env → c.sender ≠ (P x).mailbox
  routes : ∀ e ∈ log, ∀ x c env m, e.1 = .router x c env → c.msg = .inr m →
    ∀ o q, (o, some q) ∈ remoteUpdates m → ∃ y, o = d y ∧ q = r y
  senders : ∀ e ∈ log, ∀ x c q, e.1 = .mailbox x c → c.msg = .dispatch q →
    bech32ToH256 (P x).codec c.sender ≠ .ok (r x)
  contracts : ∀ pre x a k, world pre x a = some k → Reachable k
  truthful : ∀ pre v, honest v → Truthful (fun o b => ∀ y, o = d y → b ∈ announcedAt y pre) (signed pre) v
  guarded : ∀ pre x c out post md m s y, log = pre ++ (TokenNet.Act.mailbox x c, out) :: post → c.msg = .process md m →
    Tx.Chain (TokenNet.step keccak256 P) s0 pre s → originOf m = (d y).toNat → senderOf m = r y → recipientOf m = r x →
    (∃ depth, c.env.verify = askIsm keccak256 (recover norm) (world pre x) depth) ∧
    ∀ ism, ResponsibleIsm c.env (s x).box (P x).router ism → Guarded (world pre x) honest (d y) ism

/-- The metadata of a delivery that took place have a signature, valid for the secret key of an honest validator, of what the
validator had not signed by then; or one valid for another secret key with its address; or they and what honest validators had signed
by then give a collision of keccak256. -/
def CryptoBroken (g : secp256k1.Point) (norm : Bool) (key : Bytes → ℕ) (d : κ → UInt32) (honest : Bytes → Prop)
    (signed : TokenLog κ → Bytes → Attestation → Prop) (log : TokenLog κ) : Prop :=
  ∃ pre x c out post md m y, log = pre ++ (TokenNet.Act.mailbox x c, out) :: post ∧ c.msg = .process md m ∧
    originOf m = (d y).toNat ∧
    (KeyBroken g norm key honest (signed pre) (d y) md m ∨ AddressBroken g norm key honest (signed pre) (d y) md m ∨
      HashBroken keccak256 honest (signed pre) (d y) md m)

end Spec

theorem validated_or_broken {g : secp256k1.Point} (hg : IsGenerator g) (norm : Bool) (key : Bytes → ℕ)
    {P : κ → Setup} {r : κ → Bytes} {d : κ → UInt32} {world : TokenLog κ → κ → Addr → Option IsmContract} {honest : Bytes → Prop}
    {signed : TokenLog κ → Bytes → Attestation → Prop} {s0 : κ → Bridge.Chain} {log : TokenLog κ}
    (hk : KeyedNet norm P r d world honest signed s0 log) :
    ValidatedNet keccak256 (recover norm) P r d world honest signed s0 log ∨ CryptoBroken g norm key d honest signed log := by
  by_cases hb : CryptoBroken g norm key d honest signed log
  · exact .inr hb
  · refine .inl ⟨hk.callers, hk.routes, hk.senders, hk.contracts, hk.truthful, hk.guarded, ?_⟩
    intro pre x c out post md m y hl hc ho
    constructor
    · intro hf
      refine hb ⟨pre, x, c, out, post, md, m, y, hl, hc, ho, ?_⟩
      exact (forged_broken hg norm hf).elim .inl (fun h => .inr (.inl h))
    · intro hh
      exact hb ⟨pre, x, c, out, post, md, m, y, hl, hc, ho, .inr (.inr hh)⟩

/-- **C102** (safety). Freshly deployed token routers without initial balances; at each delivery the module responsible for the router is
guarded for the origin, and honest validators, known by their secret keys, attest only announced messages. After every
execution what any accounts hold of bridged tokens, together with all transfers in transit, is not more than what the
collateral routers hold; or a delivery that took place broke a key, an address or keccak256. -/
theorem C102_backed_or_broken [Fintype κ] {g : secp256k1.Point} (hg : IsGenerator g) (norm : Bool) (key : Bytes → ℕ)
    (P : κ → Setup) (r : κ → Bytes) (d : κ → UInt32) (M : κ → Warp.Mode)
    (world : TokenLog κ → κ → Addr → Option IsmContract) (honest : Bytes → Prop)
    (signed : TokenLog κ → Bytes → Attestation → Prop) (s0 : κ → TokenWorld.Chain)
    (txs : List (List (Tx.Act (TokenWorld.Act κ)))) (A : κ → Finset Addr)
    (hp : Placed P r d s0) (hd : ∀ x, Deployed NoInitial (P x) (M x) (s0 x))
    (hk : KeyedNet norm P r d world honest signed (view P M s0)
      (viewLog P M (Tx.history (TokenWorld.step keccak256 P) s0 txs).2))
    (hr : RecipientsNet (· ≤ 32) (viewLog P M (Tx.history (TokenWorld.step keccak256 P) s0 txs).2)) :
    bridgedHoldings P M (Tx.history (TokenWorld.step keccak256 P) s0 txs).1 A +
        inTransit r (viewLog P M (Tx.history (TokenWorld.step keccak256 P) s0 txs).2) ≤
      lockedCollateral P M (Tx.history (TokenWorld.step keccak256 P) s0 txs).1 ∨
    CryptoBroken g norm key d honest signed (viewLog P M (Tx.history (TokenWorld.step keccak256 P) s0 txs).2) :=
  (validated_or_broken hg norm key hk).imp
    (fun hv => Deploy.C88_validators_back_holders length_keccak256 P r d M world honest signed s0 txs A hp hd hv hr) id

/-- **C102** (liveness). In such a network a transfer of `amount` (not zero) to an account of 32 bytes announced one message for a
chain `z` of the network. As long as it was not delivered, whoever has signatures, made with the secret keys of validators, that suffice
for the module then responsible for the router of `z` has metadata with which anybody delivers it, and the account has `amount`
tokens more than before. The other conditions are those of C88. Or another message with the same keccak256 was delivered before, or a
delivery broke a key, an address or the hash. -/
theorem C102_transfers_arrive [Fintype κ] {g : secp256k1.Point} (hg : IsGenerator g) (norm : Bool) (key : Bytes → ℕ)
    (P : κ → Setup) (r : κ → Bytes) (d : κ → UInt32) (M : κ → Warp.Mode)
    (world : TokenLog κ → κ → Addr → Option IsmContract) (honest : Bytes → Prop)
    (signed : TokenLog κ → Bytes → Attestation → Prop) (s0 : κ → TokenWorld.Chain)
    (txs : List (List (Tx.Act (TokenWorld.Act κ))))
    (hp : Placed P r d s0) (hd : ∀ x, Deployed NoInitial (P x) (M x) (s0 x))
    (htok : ∀ x, (P x).token ≠ (P x).mailbox)
    (hk : KeyedNet norm P r d world honest signed (view P M s0)
      (viewLog P M (Tx.history (TokenWorld.step keccak256 P) s0 txs).2))
    (hr : RecipientsNet (· ≤ 32) (viewLog P M (Tx.history (TokenWorld.step keccak256 P) s0 txs).2))
    {x : κ} {c : ExecCall (Addr → Bool) Warp.Msg} {env : Mailbox.Env} {o : Out} {dest : UInt32} {recipient : Bytes}
    {amount : Nat} {hook : Option Addr} {md : Option Bytes}
    (he : (TokenWorld.Act.router x c env, o) ∈ (Tx.history (TokenWorld.step keccak256 P) s0 txs).2)
    (hm : c.msg = .inr (.transferRemote dest recipient amount hook md)) (hlen : recipient.length = 32) (hne : amount ≠ 0) :
    (∃ z m, dest = d z ∧ o.mailbox.flatMap dispatchedIn = [m] ∧
      ∀ (now : Addr → Option IsmContract) (e : Mailbox.Env) (sender ism dst : Addr) (size : Nat),
        sender ≠ (P z).router →
        m ∉ deliveredAt z (viewLog P M (Tx.history (TokenWorld.step keccak256 P) s0 txs).2) →
        (s0 z).box.deliveries.has (keccak256 m) = false →
        ((Tx.history (TokenWorld.step keccak256 P) s0 txs).1 z).box.config.defaultIsm ≠ none →
        ResponsibleIsm e ((Tx.history (TokenWorld.step keccak256 P) s0 txs).1 z).box (P z).router ism →
        KeyCan g now m ism true size →
        bech32Encode (P z).codec ((Tx.history (TokenWorld.step keccak256 P) s0 txs).1 z).router.2.hrp recipient = .ok dst →
        Router.getRoute ((Tx.history (TokenWorld.step keccak256 P) s0 txs).1 z).router.2.routes (d x) = some (r x) →
        (M z = .collateral → ∀ y, M y = .collateral → y = z) →
        (M z = .bridged → (P z).native = false →
          lockedCollateral P M (Tx.history (TokenWorld.step keccak256 P) s0 txs).1 < 2 ^ 128) →
        ∃ metadata depth, metadata.length ≤ size ∧ ∀ k,
          (∃ s' o', TokenWorld.step keccak256 P (Tx.history (TokenWorld.step keccak256 P) s0 txs).1 (.mailbox z
              ⟨{ e with verify := askIsm keccak256 (recover norm) now (depth + k) }, sender, [], .process metadata m⟩) =
              .ok (s', o') ∧
            (dst ≠ (P z).router → holding (P z) (s' z) dst =
              holding (P z) ((Tx.history (TokenWorld.step keccak256 P) s0 txs).1 z) dst + amount) ∧
            ∀ a, a ≠ dst → a ≠ (P z).router → holding (P z) (s' z) a =
              holding (P z) ((Tx.history (TokenWorld.step keccak256 P) s0 txs).1 z) a) ∨
          ∃ m' ∈ deliveredAt z (viewLog P M (Tx.history (TokenWorld.step keccak256 P) s0 txs).2),
            m' ≠ m ∧ keccak256 m' = keccak256 m) ∨
    CryptoBroken g norm key d honest signed (viewLog P M (Tx.history (TokenWorld.step keccak256 P) s0 txs).2) := by
  rcases validated_or_broken hg norm key hk with hv | hb
  · obtain ⟨z, m, k1, k2, k3⟩ := Deploy.C88_attested_transfers_arrive length_keccak256 recover_ne P r d M world honest signed s0 txs
      hp hd htok hv hr he hm hlen hne
    exact .inl ⟨z, m, k1, k2, fun now e sender ism dst size a1 a2 a3 a4 a5 a6 => k3 now e sender ism dst size a1 a2 a3 a4 a5
      (can_of_keyCan hg norm a6)⟩
  · exact .inr hb

/-! ### Example: the deployed network of C88, the validator with the secret key two -/

namespace Deploy.Keyed

open ExDeploy Deploy.Guard
open Ex.Net (rid dom hub play playable recipients_of recipientsOf history_play)
open TokenWorld (Act)
open Bridge.Ex (vMsg)

/-- After the announcement. -/
def first : (Fin 3 → TokenWorld.Chain) × List (Tx.Entry (Act (Fin 3)) Out) :=
  play (TokenWorld.step keccak256 setup) (start []) acts

theorem first_facts : (playable (TokenWorld.step keccak256 setup) (start []) acts = true ∧
    (∀ n ∈ recipientsOf (viewLog setup hub first.2), n ≤ 32)) ∧ vMsg ∈ announcedAt 0 (viewLog setup hub first.2) ∧
    ((first.2[2]?).map (fun e => e.2.mailbox.flatMap dispatchedIn)) = some [vMsg] ∧
    (first.1 1).box.config.defaultIsm = some "ism" ∧
    vMsg ∉ deliveredAt 1 (viewLog setup hub first.2) ∧ (start [] 1).box.deliveries.has (keccak256 vMsg) = false ∧
    bech32Encode (setup 1).codec (first.1 1).router.2.hrp Ex.aliceId = .ok Ex.alice ∧
    Router.getRoute (first.1 1).router.2.routes (dom 0) = some (rid 0) ∧ lockedCollateral setup hub first.1 < 2 ^ 128 := by
  decide +kernel

theorem first_eq : Tx.history (TokenWorld.step keccak256 setup) (start []) (acts.map (fun a => [.call a []])) = first :=
  history_play first_facts.1.1

/-- The module of all chains is a multisig contract with the one validator. -/
def world (_ : TokenLog (Fin 3)) (_ : Fin 3) : Addr → Option IsmContract := Ex.secpWorld

/-- What the validator attests once it is announced. -/
def checkpoint : Attestation := .checkpoint 1 (zeros 32) (zeros 32) 1 vMsg

def signed (pre : TokenLog (Fin 3)) (_ : Bytes) (a : Attestation) : Prop := a = checkpoint ∧ vMsg ∈ announcedAt 0 pre

def signature : Bytes := beN 32 Ex.secpR ++ beN 32 ((fromBE (checkpoint.digest keccak256) + Ex.secpR * 2) % n) ++ [27]

theorem attested {g : secp256k1.Point} (hg : IsGenerator g) : EthSigned g false 2 (checkpoint.digest keccak256) signature :=
  ⟨1, Ex.secpR, _, false, Ex.secp_signed hg _ (by decide +kernel), .inl (by decide +kernel), rfl⟩

theorem approvable {g : secp256k1.Point} (hg : IsGenerator g) : KeyCan g Ex.secpWorld vMsg "ism" true 133 := by
  refine .signed (s := (multisigAfter "owner" Ex.secpOnly).2)
    (m := (Message.decode vMsg).toOption.getD ⟨0, 0, 0, [], 0, [], []⟩) (t := 1) (vs := [Ex.secpAddr]) (tree := zeros 32)
    (root := zeros 32) (index := 1) (q := [Ex.secpAddr]) (fun _ => 2) (fun _ => signature) rfl
    (by decide +kernel) (by decide) (wireFormat_of_decode (get_ok (by decide +kernel))) (by decide) (by decide) (by simp) rfl ?_
    (by decide)
  intro v hv
  obtain rfl := List.mem_singleton.1 hv
  have ho : ((Message.decode vMsg).toOption.getD ⟨0, 0, 0, [], 0, [], []⟩).origin = 1 := by decide +kernel
  rw [ho]
  exact ⟨by simp, by decide, by decide, Ex.secp_address hg, attested hg⟩

theorem keyed (norm : Bool) : KeyedNet norm setup rid dom world (· = Ex.secpAddr) signed
    (view setup hub (start [])) (viewLog setup hub first.2) := by
  have hv : viewLog setup hub first.2 = [(.router 0 ⟨fun _ => true, "o", [], .inr (.router (.setRoutes (Ex.Net.routes 0)))⟩
      Ex.freeEnv, ((first.2[0]?).map (·.2)).getD ⟨{}, []⟩), (.router 1 ⟨fun _ => true, "o", [], .inr (.router (.setRoutes (Ex.Net.routes 1)))⟩
      Ex.freeEnv, ((first.2[1]?).map (·.2)).getD ⟨{}, []⟩), (.router 0 ⟨fun _ => true, Ex.alice, [⟨(setup 0).token, 100⟩],
    .inr (.transferRemote (dom 1) Ex.aliceId 100 none none)⟩ Ex.freeEnv, ((first.2[2]?).map (·.2)).getD ⟨{}, []⟩)] := rfl
  rw [hv]
  generalize ((first.2[0]?).map (·.2)).getD ⟨{}, []⟩ = o0
  generalize ((first.2[1]?).map (·.2)).getD ⟨{}, []⟩ = o1
  generalize ((first.2[2]?).map (·.2)).getD ⟨{}, []⟩ = o2
  refine ⟨?_, ?_, ?_, ?_, ?_, ?_⟩
  · intro e he x c env h
    simp only [List.mem_cons, List.not_mem_nil, or_false] at he
    rcases he with rfl | rfl | rfl <;> cases h <;> decide
  · intro e he x c env m h hm o q hq
    simp only [List.mem_cons, List.not_mem_nil, or_false] at he
    rcases he with rfl | rfl | rfl <;> cases h <;> cases hm
    · exact routes_ok _ _ _ hq
    · exact routes_ok _ _ _ hq
    · simp [remoteUpdates] at hq
  · intro e he x c q h hq
    simp only [List.mem_cons, List.not_mem_nil, or_false] at he
    rcases he with rfl | rfl | rfl <;> cases h
  · intro pre x a k h
    cases h
    exact ⟨"owner", Ex.secpOnly, rfl⟩
  · intro pre v _ o tree root i b hs
    obtain ⟨h, h'⟩ := hs
    cases h
    refine ⟨by decide, by decide, fun y ho => ?_⟩
    have : y = 0 := by
      revert ho
      revert y
      decide
    subst this
    exact h'
  · intro pre x c out post md m s y hl hcm hch ho hs hr
    have hmem : (TokenNet.Act.mailbox x c, out) ∈ pre ++ (TokenNet.Act.mailbox x c, out) :: post := by simp
    rw [← hl] at hmem
    simp at hmem

/-- Before the delivery everything is as required, and alice's account on chain 1 can get the 100 tokens with the signature. -/
example {g : secp256k1.Point} (hg : IsGenerator g) (norm : Bool) : Placed setup rid dom (start []) ∧
    (∀ x, Deployed NoInitial (setup x) (hub x) (start [] x)) ∧ (∀ x, (setup x).token ≠ (setup x).mailbox) ∧
    let h := Tx.history (TokenWorld.step keccak256 setup) (start []) (acts.map (fun a => [.call a []]))
    KeyedNet norm setup rid dom world (· = Ex.secpAddr) signed (view setup hub (start [])) (viewLog setup hub h.2) ∧
    RecipientsNet (· ≤ 32) (viewLog setup hub h.2) ∧
    ((h.2[2]?).map (fun e => e.2.mailbox.flatMap dispatchedIn)) = some [vMsg] ∧
    vMsg ∉ deliveredAt 1 (viewLog setup hub h.2) ∧ (start [] 1).box.deliveries.has (keccak256 vMsg) = false ∧
    ResponsibleIsm Ex.freeEnv (h.1 1).box (setup 1).router "ism" ∧ KeyCan g Ex.secpWorld vMsg "ism" true 133 ∧
    bech32Encode (setup 1).codec (h.1 1).router.2.hrp Ex.aliceId = .ok Ex.alice ∧
    Router.getRoute (h.1 1).router.2.routes (dom 0) = some (rid 0) ∧ lockedCollateral setup hub h.1 < 2 ^ 128 := by
  refine ⟨start_placed [], start_deployed rfl Deploy.Guard.deploy_ok, by decide +kernel, ?_⟩
  rw [first_eq]
  obtain ⟨⟨_, h1⟩, _, h2, h3, h4, h5, h6⟩ := first_facts
  exact ⟨keyed norm, recipients_of h1, h2, h4, h5, .inr ⟨rfl, h3⟩, approvable hg, h6⟩

end Deploy.Keyed

end Hpl
