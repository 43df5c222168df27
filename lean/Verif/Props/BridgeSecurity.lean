import Verif.Spec.BridgeSecurity
import Verif.Props.Bridge
import Verif.Props.Security

/-! # A bridge guarded by honest validators: C64 -/

namespace Hpl.Bridge

open Spec

theorem originOf_wire {m : Message} {b : Bytes} {d : UInt32} (hm : WireFormat m b) (h : originOf b = d.toNat) :
    m.origin = d := by
  have := hm.origin
  unfold originOf at h
  exact UInt32.toNat_inj.1 (this.symm.trans h)

/-- The local domain, the prefix and thereby the address of the router do not change. -/
theorem linked_chain {H : Bytes → Bytes} {P : Side → Setup} {r : Side → Bytes} {d : Side → UInt32}
    {s0 : Side → Chain} (hl : Linked P r d s0) (log : BridgeLog)
    (h1 : ∀ e ∈ log, ∀ x c env, e.1 = .router x c env → c.sender ≠ (P x).mailbox)
    (h2 : ∀ e ∈ log, ∀ x c env, e.1 = .router x c env → ∀ m, c.msg ≠ .inr (.router m))
    (h3 : ∀ e ∈ log, ∀ x c q, e.1 = .mailbox x c → c.msg = .dispatch q →
      bech32ToH256 (P x).codec c.sender ≠ .ok (r x)) :
    ∀ s, Tx.Chain (step H P) s0 log s → Linked P r d s := by
  induction log using List.reverseRecOn with
  | nil => intro s hc; simp only [Tx.Chain] at hc; subst hc; exact hl
  | append_singleton log e ih =>
    intro s' hc
    obtain ⟨s, k1, k2⟩ := Tx.Chain.snoc.1 hc
    have hmem : e ∈ log ++ [e] := by simp
    exact (step_effect (o := e.2) (ih (fun e he => h1 e (List.mem_append_left _ he))
      (fun e he => h2 e (List.mem_append_left _ he)) (fun e he => h3 e (List.mem_append_left _ he)) s k1) k2
      (fun x c env ha => h1 e hmem x c env ha) (fun x c env ha => h2 e hmem x c env ha)
      (fun x c q ha => h3 e hmem x c q ha)).1

/-- Guarded security modules are sound. -/
theorem honest_of_validated {H : Bytes → Bytes} (hH : ∀ x, (H x).length = 32) {R : Recover} {P : Side → Setup}
    {r : Side → Bytes} {d : Side → UInt32} {world : BridgeLog → Side → Addr → Option IsmContract}
    {honest : Bytes → Prop} {signed : BridgeLog → Bytes → Attestation → Prop} {s0 s' : Side → Chain}
    {log : BridgeLog} (hl : Linked P r d s0) (hc : Tx.Chain (step H P) s0 log s')
    (hv : Validated H R P r d world honest signed s0 log) : Honest P r d log := by
  refine ⟨hv.callers, hv.routes, hv.senders, ?_⟩
  intro pre x c out post md m hlog hcm ho hs hr
  rw [hlog] at hc
  obtain ⟨s, h1, s1, h2, _⟩ := Tx.Chain.split hc
  have hmem : ∀ e ∈ pre, e ∈ log := fun e he => by rw [hlog]; exact List.mem_append_left _ he
  have hls := linked_chain hl pre (fun e he => hv.callers e (hmem e he)) (fun e he => hv.routes e (hmem e he))
    (fun e he => hv.senders e (hmem e he)) s h1
  obtain ⟨⟨depth, g1⟩, g2⟩ := hv.guarded pre x c out post md m s hlog hcm h1 ho hs hr
  obtain ⟨⟨b, resp⟩, h3, _⟩ := bind_eq_ok.1 h2
  obtain ⟨mm, k1, k2⟩ := C63_delivery_sound hH (hv.contracts pre x) (fun v hh => hv.truthful pre x.other v hh) g1 hcm
    (fun mm rc ism hw he hres => by
      rw [originOf_wire hw ho]
      have hrec : mm.recipient = r x := hw.recipient.symm.trans hr
      rw [hrec, hls.address x] at he
      cases he
      exact g2 ism hres) h3
  have hor := originOf_wire k1 ho
  rw [hor] at k2
  obtain ⟨c1, c2⟩ := hv.crypto pre x c out post md m hlog hcm
  rcases k2 with k2 | k2 | k2
  · exact k2 rfl
  · exact absurd k2 c1
  · exact absurd k2 c2

/-- **C64.** From any linked state in which the bridged supply is backed, after every execution of the two chains (any
nesting of calls, any rollbacks) in which the module responsible for each router is guarded, honest validators attest
only announced messages and recipients have 32 bytes: the collateral covers the bridged supply and all transfers in
flight, no more was minted than locked and no more released than burned. -/
theorem C64_validators_keep_backing {H : Bytes → Bytes} (hH : ∀ x, (H x).length = 32) {R : Recover} (P : Side → Setup)
    (r : Side → Bytes) (d : Side → UInt32) (world : BridgeLog → Side → Addr → Option IsmContract)
    (honest : Bytes → Prop) (signed : BridgeLog → Bytes → Attestation → Prop) (s0 : Side → Chain)
    (txs : List (List (Tx.Act Act))) (hl : Linked P r d s0) (h0 : (s0 .right).supply ≤ (s0 .left).held)
    (hv : Validated H R P r d world honest signed s0 (Tx.history (step H P) s0 txs).2)
    (hr : Recipients (· = 32) (Tx.history (step H P) s0 txs).2) :
    ((Tx.history (step H P) s0 txs).1 .right).supply + inFlight r .left (Tx.history (step H P) s0 txs).2 +
        inFlight r .right (Tx.history (step H P) s0 txs).2 ≤ ((Tx.history (step H P) s0 txs).1 .left).held ∧
    minted P .right (Tx.history (step H P) s0 txs).2 ≤ locked P .left (Tx.history (step H P) s0 txs).2 ∧
    released P .left (Tx.history (step H P) s0 txs).2 ≤ burned P .right (Tx.history (step H P) s0 txs).2 :=
  C61_backing_partial H P r d s0 txs hl h0 (honest_of_validated hH hl (Tx.history_chain _ _ _) hv)
    (fun e he x c env dest recipient amount hook md k1 k2 => by
      rw [hr e he x c env dest recipient amount hook md k1 k2])

/-! A concrete case: one honest validator on the right, with a hash that is injective on what matters and a recovery that
accepts one digest. A transfer of 100 tokens is dispatched on the left, attested, and delivered on the right. -/

/-- The message of the transfer. -/
def Ex.vMsg : Bytes := Ex.transferMsg .left 0 Ex.aliceId 100

def Ex.vCode (k : UInt8) : Bytes := List.replicate 32 k

def Ex.vIn1 : Bytes := u32be 1 ++ zeros 32 ++ ascii "HYPERLANE"
def Ex.vIn2 : Bytes := Ex.vCode 1 ++ zeros 32 ++ u32be 0 ++ Ex.vCode 2
def Ex.vIn3 : Bytes := personalInput (Ex.vCode 3)

def Ex.vHash (x : Bytes) : Bytes :=
  if x = Ex.vIn1 then Ex.vCode 1 else if x = Ex.vMsg then Ex.vCode 2 else if x = Ex.vIn2 then Ex.vCode 3
  else if x = Ex.vIn3 then Ex.vCode 4 else zeros 32

def Ex.vRecover : Recover := fun digest _ _ => if digest = Ex.vCode 4 then some [4] else none

def Ex.vMeta : Bytes := zeros 68 ++ (zeros 64 ++ [27])

def Ex.vWorld (_ : BridgeLog) (_ : Side) (a : Addr) : Option IsmContract :=
  if a = "ism" then some (.multisig (multisigAfter "owner"
    [⟨fun _ => true, "owner", .inr (.setValidators 1 1 [zeros 20])⟩]).2) else none

def Ex.vHonest (v : Bytes) : Prop := v = zeros 20

def Ex.vAttestation : Attestation := .checkpoint 1 (zeros 32) (zeros 32) 0 Ex.vMsg

def Ex.vSigned (pre : BridgeLog) (v : Bytes) (a : Attestation) : Prop :=
  v = zeros 20 ∧ a = Ex.vAttestation ∧ Ex.vMsg ∈ announcedOn .left pre

def Ex.vRelay : Mailbox.Call :=
  ⟨{ Ex.freeEnv with verify := askIsm Ex.vHash Ex.vRecover (Ex.vWorld [] .right) 1 }, "relayer", [],
    .process Ex.vMeta Ex.vMsg⟩

def Ex.vActs : List Act := [Ex.sendRight Ex.aliceId 100, .mailbox .right Ex.vRelay]

theorem Ex.vHash_length (x : Bytes) : (Ex.vHash x).length = 32 := by
  unfold Ex.vHash
  repeat' split
  all_goals simp [Ex.vCode, zeros]

theorem Ex.vInputs : Ex.vAttestation.inputs Ex.vHash = [Ex.vMsg, Ex.vIn1, Ex.vIn2, Ex.vIn3] := by decide +kernel

theorem Ex.vDigest : Ex.vAttestation.digest Ex.vHash = Ex.vCode 4 := by decide +kernel

theorem Ex.vHash_inj {x y : Bytes} (hx : x ∈ Ex.vAttestation.inputs Ex.vHash) : ¬ Collision Ex.vHash x y := by
  rintro ⟨hne, he⟩
  rw [Ex.vInputs] at hx
  have key : ∀ k : UInt8, k ≠ 0 → (Ex.vHash x = Ex.vCode k) → (∀ z, Ex.vHash z = Ex.vCode k → z = x) → False := by
    intro k _ h1 h2
    exact hne (h2 y (he.symm.trans h1)).symm
  have other : ∀ k : UInt8, ∀ z, Ex.vHash z = Ex.vCode k → k ≠ 0 →
      (k = 1 ∧ z = Ex.vIn1) ∨ (k = 2 ∧ z = Ex.vMsg) ∨ (k = 3 ∧ z = Ex.vIn2) ∨ (k = 4 ∧ z = Ex.vIn3) := by
    intro k z hz hk
    have inj : ∀ a b : UInt8, Ex.vCode a = Ex.vCode b → a = b := by
      intro a b h
      exact (List.cons.inj h).1
    unfold Ex.vHash at hz
    split at hz
    · exact .inl ⟨(inj _ _ hz).symm, by assumption⟩
    · split at hz
      · exact .inr (.inl ⟨(inj _ _ hz).symm, by assumption⟩)
      · split at hz
        · exact .inr (.inr (.inl ⟨(inj _ _ hz).symm, by assumption⟩))
        · split at hz
          · exact .inr (.inr (.inr ⟨(inj _ _ hz).symm, by assumption⟩))
          · exact absurd (inj 0 k hz).symm hk
  simp only [List.mem_cons, List.not_mem_nil, or_false] at hx
  rcases hx with rfl | rfl | rfl | rfl
  · refine key 2 (by decide) (by decide +kernel) (fun z hz => ?_)
    rcases other 2 z hz (by decide) with h | h | h | h
    · exact absurd h.1 (by decide)
    · exact h.2
    · exact absurd h.1 (by decide)
    · exact absurd h.1 (by decide)
  · refine key 1 (by decide) (by decide +kernel) (fun z hz => ?_)
    rcases other 1 z hz (by decide) with h | h | h | h
    · exact h.2
    · exact absurd h.1 (by decide)
    · exact absurd h.1 (by decide)
    · exact absurd h.1 (by decide)
  · refine key 3 (by decide) (by decide +kernel) (fun z hz => ?_)
    rcases other 3 z hz (by decide) with h | h | h | h
    · exact absurd h.1 (by decide)
    · exact absurd h.1 (by decide)
    · exact h.2
    · exact absurd h.1 (by decide)
  · refine key 4 (by decide) (by decide +kernel) (fun z hz => ?_)
    rcases other 4 z hz (by decide) with h | h | h | h
    · exact absurd h.1 (by decide)
    · exact absurd h.1 (by decide)
    · exact absurd h.1 (by decide)
    · exact h.2

theorem Ex.validated : Validated Ex.vHash Ex.vRecover Ex.setup Ex.routerId Ex.domainOf Ex.vWorld Ex.vHonest Ex.vSigned
    Ex.bridge0 (Ex.play Ex.vHash Ex.bridge0 Ex.vActs).2 := by
  have hann : Ex.vMsg ∈ announcedOn .left
      [(Ex.sendRight Ex.aliceId 100, (Ex.after Ex.vHash Ex.bridge0 (Ex.sendRight Ex.aliceId 100)).2)] := by
    decide +kernel
  have hlog : ∃ o2, (Ex.play Ex.vHash Ex.bridge0 Ex.vActs).2 =
      [(Ex.sendRight Ex.aliceId 100, (Ex.after Ex.vHash Ex.bridge0 (Ex.sendRight Ex.aliceId 100)).2),
        (.mailbox .right Ex.vRelay, o2)] := ⟨_, rfl⟩
  obtain ⟨o2, hlog⟩ := hlog
  rw [hlog]
  generalize (Ex.after Ex.vHash Ex.bridge0 (Ex.sendRight Ex.aliceId 100)).2 = o1 at *
  have hpos : ∀ pre x c out post,
      [(Ex.sendRight Ex.aliceId 100, o1), (Act.mailbox .right Ex.vRelay, o2)] = pre ++ (Act.mailbox x c, out) :: post →
      pre = [(Ex.sendRight Ex.aliceId 100, o1)] ∧ x = .right ∧ c = Ex.vRelay := by
    intro pre x c out post h
    match pre with
    | [] => cases h
    | [a] => cases h; exact ⟨rfl, rfl, rfl⟩
    | a :: b :: t =>
      have := congrArg List.length h
      simp at this
  refine ⟨?_, ?_, ?_, ?_, ?_, ?_, ?_⟩
  · intro e he x c env h
    simp only [List.mem_cons, List.not_mem_nil, or_false] at he
    rcases he with rfl | rfl
    · cases h; decide
    · cases h
  · intro e he x c env h m
    simp only [List.mem_cons, List.not_mem_nil, or_false] at he
    rcases he with rfl | rfl
    · cases h; intro hh; cases hh
    · cases h
  · intro e he x c q h hq
    simp only [List.mem_cons, List.not_mem_nil, or_false] at he
    rcases he with rfl | rfl
    · cases h
    · cases h; cases hq
  · intro pre x a k h
    unfold Ex.vWorld at h
    split at h
    · cases h; exact ⟨_, _, rfl⟩
    · cases h
  · intro pre x v _ o tree root i b hs
    obtain ⟨_, h, h'⟩ := hs
    cases h
    refine ⟨by decide, by decide, fun ho => ?_⟩
    cases x
    · exact h'
    · exact absurd ho (by decide)
  · intro pre x c out post md m s hl hcm hch ho hs hr
    obtain ⟨rfl, rfl, rfl⟩ := hpos pre x c out post hl
    refine ⟨⟨1, rfl⟩, fun ism hi => ?_⟩
    obtain ⟨s1, h1, h2⟩ := hch
    simp only [Tx.Chain] at h2
    subst h2
    have hbox : (s .right) = Ex.bridge0 .right := (step_effect Ex.bridge0_linked h1
      (by intro x c env h; cases h; decide) (by intro x c env h m; cases h; intro hh; cases hh)
      (by intro x c q h; cases h)).2.1 .right (by decide)
    rw [hbox] at hi
    rcases hi with hi | ⟨_, hi⟩
    · cases hi
    · cases hi
      refine .multisig (s := (multisigAfter "owner"
        [⟨fun _ => true, "owner", .inr (.setValidators 1 1 [zeros 20])⟩]).2) (by simp [Ex.vWorld]) ?_
      intro vs t hv ht q hq hall
      have hv' : (multisigAfter "owner" [⟨fun _ => true, "owner", .inr (.setValidators 1 1 [zeros 20])⟩]).2.validators.get
        1 = some [zeros 20] := by decide +kernel
      have ht' : (multisigAfter "owner" [⟨fun _ => true, "owner", .inr (.setValidators 1 1 [zeros 20])⟩]).2.threshold.get
        1 = some 1 := by decide +kernel
      have hd : Ex.domainOf Side.right.other = 1 := rfl
      rw [hd, hv'] at hv
      rw [hd, ht'] at ht
      cases hv
      cases ht
      cases q with
      | nil => decide
      | cons a q =>
        obtain ⟨h1, h2⟩ := hall a (by simp)
        exact absurd (by simpa [Ex.vHonest] using h1) h2
  · intro pre x c out post md m hl hcm
    obtain ⟨rfl, rfl, rfl⟩ := hpos pre x c out post hl
    cases hcm
    constructor
    · rintro ⟨v, part, sig, hv, _, _, hby, hno⟩
      refine hno Ex.vAttestation ⟨hv, rfl, hann⟩ ?_
      obtain ⟨_, _, _, _, _, _, hrec, _⟩ := hby
      unfold Ex.vRecover at hrec
      split at hrec
      · rename_i hh; rw [hh]; exact Ex.vDigest
      · cases hrec
    · rintro ⟨v, a, part, _, ⟨_, rfl, _⟩, _, x, hx, y, _, hc⟩
      exact Ex.vHash_inj hx hc

example : (∀ x, (Ex.vHash x).length = 32) ∧ Linked Ex.setup Ex.routerId Ex.domainOf Ex.bridge0 ∧
    let x := Tx.history (step Ex.vHash Ex.setup) Ex.bridge0 (Ex.vActs.map (fun a => [.call a []]))
    Validated Ex.vHash Ex.vRecover Ex.setup Ex.routerId Ex.domainOf Ex.vWorld Ex.vHonest Ex.vSigned Ex.bridge0 x.2 ∧
    Recipients (· = 32) x.2 ∧ (x.1 .left).held = 100 ∧ (x.1 .right).supply = 100 := by
  have hp : Ex.playable Ex.vHash Ex.bridge0 Ex.vActs = true := by decide +kernel
  refine ⟨Ex.vHash_length, Ex.bridge0_linked, ?_⟩
  simp only [Ex.history_play hp]
  exact ⟨Ex.validated, Ex.recipients_of (by decide +kernel), by decide +kernel, by decide +kernel⟩

end Hpl.Bridge
