import Verif.Spec.TokenNetSecurity
import Verif.Props.BridgeSecurity
import Verif.Props.TokenNet

/-! # Networks of token routers guarded by honest validators: C83 -/

namespace Hpl.TokenNet

open Spec Bridge

variable {κ : Type} [DecidableEq κ]

/-- The routers stay a network. -/
theorem joined_chain {H : Bytes → Bytes} {P : κ → Setup} {r : κ → Bytes} {d : κ → UInt32} {M : κ → Warp.Mode}
    {s0 : κ → Chain} (hj : Joined P r d M s0) (log : TokenLog κ)
    (h1 : ∀ e ∈ log, ∀ x c env, e.1 = .router x c env → c.sender ≠ (P x).mailbox)
    (h2 : ∀ e ∈ log, ∀ x c env m, e.1 = .router x c env → c.msg = .inr m →
      ∀ o q, (o, some q) ∈ remoteUpdates m → ∃ y, o = d y ∧ q = r y)
    (h3 : ∀ e ∈ log, ∀ x c q, e.1 = .mailbox x c → c.msg = .dispatch q →
      bech32ToH256 (P x).codec c.sender ≠ .ok (r x)) :
    ∀ s, Tx.Chain (step H P) s0 log s → Joined P r d M s := by
  induction log using List.reverseRecOn with
  | nil => intro s hc; simp only [Tx.Chain] at hc; subst hc; exact hj
  | append_singleton log e ih =>
    intro s' hc
    obtain ⟨s, k1, k2⟩ := Tx.Chain.snoc.1 hc
    have hmem : e ∈ log ++ [e] := by simp
    exact (step_books (o := e.2) (ih (fun e he => h1 e (List.mem_append_left _ he))
      (fun e he => h2 e (List.mem_append_left _ he)) (fun e he => h3 e (List.mem_append_left _ he)) s k1) k2
      (fun x c env ha => h1 e hmem x c env ha) (fun x c env m ha => h2 e hmem x c env m ha)
      (fun x c q ha => h3 e hmem x c q ha)).1

/-- Guarded security modules are sound. -/
theorem honest_of_validated {H : Bytes → Bytes} (hH : ∀ x, (H x).length = 32) {R : Recover} {P : κ → Setup}
    {r : κ → Bytes} {d : κ → UInt32} {M : κ → Warp.Mode} {world : TokenLog κ → κ → Addr → Option IsmContract}
    {honest : Bytes → Prop} {signed : TokenLog κ → Bytes → Attestation → Prop} {s0 s' : κ → Chain}
    {log : TokenLog κ} (hj : Joined P r d M s0) (hc : Tx.Chain (step H P) s0 log s')
    (hv : ValidatedNet H R P r d world honest signed s0 log) : HonestNet P r d log := by
  refine ⟨hv.callers, hv.routes, hv.senders, ?_⟩
  intro pre x c out post md m hlog hcm y ho hs hr
  rw [hlog] at hc
  obtain ⟨s, h1, s1, h2, _⟩ := Tx.Chain.split hc
  have hmem : ∀ e ∈ pre, e ∈ log := fun e he => by rw [hlog]; exact List.mem_append_left _ he
  have hjs := joined_chain hj pre (fun e he => hv.callers e (hmem e he)) (fun e he => hv.routes e (hmem e he))
    (fun e he => hv.senders e (hmem e he)) s h1
  obtain ⟨⟨depth, g1⟩, g2⟩ := hv.guarded pre x c out post md m s y hlog hcm h1 ho hs hr
  obtain ⟨⟨b, resp⟩, h3, _⟩ := bind_eq_ok.1 h2
  obtain ⟨mm, k1, k2⟩ := C63_delivery_sound hH (hv.contracts pre x) (fun v hh => hv.truthful pre v hh) g1 hcm
    (fun mm rc ism hw he hres => by
      rw [originOf_wire hw ho]
      have hrec : mm.recipient = r x := hw.recipient.symm.trans hr
      rw [hrec, hjs.address x] at he
      cases he
      exact g2 ism hres) h3
  have hor := originOf_wire k1 ho
  rw [hor] at k2
  obtain ⟨c1, c2⟩ := hv.crypto pre x c out post md m y hlog hcm ho
  rcases k2 with k2 | k2 | k2
  · exact k2 y rfl
  · exact absurd k2 c1
  · exact absurd k2 c2

/-- **C83.** In a network as in C81, if at each delivery the module responsible for the router is guarded for the origin,
honest validators attest only announced messages, nobody forges their signatures or breaks the hash, and recipients have
at most 32 bytes: after every execution (any nesting of calls, any rollbacks) the collateral of all chains covers the
bridged supplies of all chains and all transfers in transit, and no more was minted and released than locked and
burned. -/
theorem C83_validators_keep_network_backed [Fintype κ] {H : Bytes → Bytes} (hH : ∀ x, (H x).length = 32) {R : Recover}
    (P : κ → Setup) (r : κ → Bytes) (d : κ → UInt32) (M : κ → Warp.Mode)
    (world : TokenLog κ → κ → Addr → Option IsmContract) (honest : Bytes → Prop)
    (signed : TokenLog κ → Bytes → Attestation → Prop) (s0 : κ → Chain) (txs : List (List (Tx.Act (Act κ))))
    (hj : Joined P r d M s0) (h0 : totalBridged M s0 ≤ totalCollateral M s0)
    (hv : ValidatedNet H R P r d world honest signed s0 (Tx.history (step H P) s0 txs).2)
    (hr : RecipientsNet (· ≤ 32) (Tx.history (step H P) s0 txs).2) :
    totalBridged M (Tx.history (step H P) s0 txs).1 + inTransit r (Tx.history (step H P) s0 txs).2 ≤
      totalCollateral M (Tx.history (step H P) s0 txs).1 ∧
    mintedNet P M (Tx.history (step H P) s0 txs).2 + releasedNet P M (Tx.history (step H P) s0 txs).2 ≤
      lockedNet P M (Tx.history (step H P) s0 txs).2 + burnedNet P M (Tx.history (step H P) s0 txs).2 :=
  C81_network_backing H P r d M s0 txs hj h0 (honest_of_validated hH hj (Tx.history_chain _ _ _) hv) hr

/-! A concrete case: the message, hash, validator and metadata of the example of C64, in a network of three chains. -/

namespace Guard

open Ex.Net

/-- The one security module, as in the example of C64. -/
def world (_ : TokenLog (Fin 3)) (_ : Fin 3) (a : Addr) : Option IsmContract := Ex.vWorld [] .right a

def signed (pre : TokenLog (Fin 3)) (v : Bytes) (a : Attestation) : Prop :=
  v = zeros 20 ∧ a = Ex.vAttestation ∧ Ex.vMsg ∈ announcedAt 0 pre

/-- Alice sends 100 tokens from chain 0 to chain 1, and they are delivered. -/
def acts : List (Act (Fin 3)) := [send 0 1 100, .mailbox 1 Ex.vRelay]

/-- What the first act answers. -/
def out1 : Out := (after (step Ex.vHash setup) (start hub) (send 0 1 100)).2

/-- What the second act answers. -/
def out2 : Out :=
  (after (step Ex.vHash setup) (after (step Ex.vHash setup) (start hub) (send 0 1 100)).1 (.mailbox 1 Ex.vRelay)).2

theorem log_eq : (play (step Ex.vHash setup) (start hub) acts).2 = [(send 0 1 100, out1), (.mailbox 1 Ex.vRelay, out2)] :=
  rfl

theorem announced : Ex.vMsg ∈ announcedAt 0 [(send 0 1 100, out1)] := by decide +kernel

theorem at_end {o1 o2 : Out} {pre post : TokenLog (Fin 3)} {x : Fin 3} {c : Mailbox.Call} {out : Out}
    (h : [(send 0 1 100, o1), (Act.mailbox 1 Ex.vRelay, o2)] = pre ++ (Act.mailbox x c, out) :: post) :
    pre = [(send 0 1 100, o1)] ∧ x = 1 ∧ c = Ex.vRelay := by
  match pre with
  | [] => cases h
  | [a] => cases h; exact ⟨rfl, rfl, rfl⟩
  | a :: b :: t =>
    have := congrArg List.length h
    simp at this

theorem origin_zero {y : Fin 3} (h : originOf Ex.vMsg = (dom y).toNat) : y = 0 := by
  have h1 : originOf Ex.vMsg = 1 := by decide +kernel
  rw [h1] at h
  revert h
  revert y
  decide

theorem guards : Guarded (world [(send 0 1 100, out1)] 1) Ex.vHonest (dom 0) "ism" := by
  refine .multisig (s := (multisigAfter "owner"
    [⟨fun _ => true, "owner", .inr (.setValidators 1 1 [zeros 20])⟩]).2) (by simp [world, Ex.vWorld]) ?_
  intro vs t hv ht q hq hall
  have hv' : (multisigAfter "owner" [⟨fun _ => true, "owner", .inr (.setValidators 1 1 [zeros 20])⟩]).2.validators.get
    1 = some [zeros 20] := by decide +kernel
  have ht' : (multisigAfter "owner" [⟨fun _ => true, "owner", .inr (.setValidators 1 1 [zeros 20])⟩]).2.threshold.get
    1 = some 1 := by decide +kernel
  have hd : dom 0 = 1 := rfl
  rw [hd, hv'] at hv
  rw [hd, ht'] at ht
  cases hv
  cases ht
  cases q with
  | nil => decide
  | cons a q =>
    obtain ⟨h1, h2⟩ := hall a (by simp)
    exact absurd (by simpa [Ex.vHonest] using h1) h2

theorem validated : ValidatedNet Ex.vHash Ex.vRecover setup rid dom world Ex.vHonest signed (start hub)
    (play (step Ex.vHash setup) (start hub) acts).2 := by
  have hann := announced
  have hgd := guards
  rw [log_eq]
  generalize out1 = o1 at *
  generalize out2 = o2 at *
  refine ⟨?_, ?_, ?_, ?_, ?_, ?_, ?_⟩
  · intro e he x c env h
    simp only [List.mem_cons, List.not_mem_nil, or_false] at he
    rcases he with rfl | rfl
    · cases h; decide
    · cases h
  · intro e he x c env m h hm o q hq
    simp only [List.mem_cons, List.not_mem_nil, or_false] at he
    rcases he with rfl | rfl
    · cases h; cases hm; simp [remoteUpdates] at hq
    · cases h
  · intro e he x c q h hq
    simp only [List.mem_cons, List.not_mem_nil, or_false] at he
    rcases he with rfl | rfl
    · cases h
    · cases h; cases hq
  · intro pre x a k h
    unfold world Ex.vWorld at h
    split at h
    · cases h; exact ⟨_, _, rfl⟩
    · cases h
  · intro pre v _ o tree root i b hs
    obtain ⟨_, h, h'⟩ := hs
    cases h
    refine ⟨by decide, by decide, fun y ho => ?_⟩
    have : y = 0 := by
      revert ho
      revert y
      decide
    subst this
    exact h'
  · intro pre x c out post md m s y hl hcm hch ho hs hr
    obtain ⟨rfl, rfl, rfl⟩ := at_end hl
    cases hcm
    cases origin_zero ho
    refine ⟨⟨1, rfl⟩, fun ism hi => ?_⟩
    obtain ⟨s1, h1, h2⟩ := hch
    simp only [Tx.Chain] at h2
    subst h2
    have hbox : s 1 = start hub 1 := (step_books (start_joined hub) h1
      (by intro x c env h; cases h; decide) (by intro x c env m h hm; cases h; cases hm; simp [remoteUpdates])
      (by intro x c q h; cases h)).2.1 1 (by decide)
    rw [hbox] at hi
    rcases hi with hi | ⟨_, hi⟩
    · cases hi
    · cases hi
      exact hgd
  · intro pre x c out post md m y hl hcm ho
    obtain ⟨rfl, rfl, rfl⟩ := at_end hl
    cases hcm
    cases origin_zero ho
    constructor
    · rintro ⟨v, part, sig, hv, _, _, hby, hno⟩
      refine hno Ex.vAttestation ⟨hv, rfl, hann⟩ ?_
      obtain ⟨_, _, _, _, _, _, hrec, _⟩ := hby
      unfold Ex.vRecover at hrec
      split at hrec
      · rename_i hh; rw [hh]; exact Ex.vDigest
      · cases hrec
    · rintro ⟨v, a, part, _, ⟨_, rfl, _⟩, _, x, hx, y, _, hc⟩
      exact Ex.vHash_inj hx hc

theorem history_eq : Tx.history (step Ex.vHash setup) (start hub) (acts.map (fun a => [.call a []])) =
    play (step Ex.vHash setup) (start hub) acts := history_play (by decide +kernel)

theorem recipients : RecipientsNet (· ≤ 32) (play (step Ex.vHash setup) (start hub) acts).2 :=
  recipients_of (by decide +kernel)

theorem state : totalCollateral hub (play (step Ex.vHash setup) (start hub) acts).1 = 100 ∧
    totalBridged hub (play (step Ex.vHash setup) (start hub) acts).1 = 100 := by decide +kernel

example : (∀ x, (Ex.vHash x).length = 32) ∧ Joined setup rid dom hub (start hub) ∧
    let x := Tx.history (step Ex.vHash setup) (start hub) (acts.map (fun a => [.call a []]))
    ValidatedNet Ex.vHash Ex.vRecover setup rid dom world Ex.vHonest signed (start hub) x.2 ∧
    RecipientsNet (· ≤ 32) x.2 ∧ totalCollateral hub x.1 = 100 ∧ totalBridged hub x.1 = 100 := by
  refine ⟨Ex.vHash_length, start_joined _, ?_⟩
  rw [history_eq]
  exact ⟨validated, recipients, state⟩

end Guard

end Hpl.TokenNet
