import Verif.Spec.Isms

/-! # What a relayer can achieve

A relayer asks the modules what they need (`VerifyInfo`, `Route`, the list of an aggregate), collects signatures and
assembles metadata. -/

namespace Hpl.Spec

/-- `Can a true n`: with metadata of at most `n` bytes module `a` can be brought to approve the message.
`Can a false n`: it can be brought to answer at all. -/
inductive Can (H : Bytes → Bytes) (R : Recover) (world : Addr → Option IsmContract) (message : Bytes) :
    Addr → Bool → Nat → Prop where
  | answer {a n} (h : Can H R world message a true n) : Can H R world message a false n
  /-- The relayer has signatures of as many of the validators named by the module as it asks for, over the same root. -/
  | signed {a s m t vs n} {tree root : Bytes} {index : UInt32} {q : List Bytes} (sig : Bytes → Bytes)
      (hw : world a = some (.multisig s)) (hi : Multisig.verifyInfo s message = .ok (t, vs)) (ht : 1 ≤ t.toNat)
      (hm : WireFormat m message) (h1 : tree.length = 32) (h2 : root.length = 32)
      (hq : q.Nodup) (hl : q.length = t.toNat)
      (hs : ∀ v ∈ q, v ∈ vs ∧ (sig v).length = 65 ∧
        SignedBy H R (checkpointDigest H m.origin tree root index (H message)) (sig v) v)
      (hn : 68 + 65 * t.toNat ≤ n) : Can H R world message a true n
  /-- A module that knows validators for the origin answers without any signatures. -/
  | unsigned {a s i n} (hw : world a = some (.multisig s)) (hi : Multisig.verifyInfo s message = .ok i) (hn : 68 ≤ n) :
      Can H R world message a false n
  | unpaused {a n} (hw : world a = some (.pausable false)) : Can H R world message a true n
  | other {a f md b n} (hw : world a = some (.other f)) (hf : f md message = .ok b) (hn : md.length ≤ n) :
      Can H R world message a b n
  | routed {a s b w n} (hw : world a = some (.routing s)) (hr : RoutingIsm.route s message = .ok b)
      (h : Can H R world message b w n) : Can H R world message a w n
  /-- As many modules as the aggregate asks for can be brought to approve, and the modules it asks before the last of them,
  i.e. those with smaller addresses, can be brought to answer. -/
  | quorum {a s n} {q : List Addr} (size : Addr → Nat) (hw : world a = some (.aggregate s))
      (ht : 1 ≤ s.threshold.toNat) (hq : q.Nodup) (hl : q.length = s.threshold.toNat)
      (hm : ∀ b ∈ q, b ∈ s.isms) (ha : ∀ b ∈ q, Can H R world message b true (size b))
      (hb : ∀ b ∈ s.isms, ∀ c ∈ q, b < c → Can H R world message b false (size b))
      (hn : 8 * s.isms.length + (s.isms.map size).sum ≤ n) (hn' : n < 2 ^ 32) : Can H R world message a true n
  /-- All modules can be brought to answer. -/
  | all {a s n} (size : Addr → Nat) (hw : world a = some (.aggregate s)) (ht : 1 ≤ s.threshold.toNat)
      (hb : ∀ b ∈ s.isms, Can H R world message b false (size b))
      (hn : 8 * s.isms.length + (s.isms.map size).sum ≤ n) (hn' : n < 2 ^ 32) : Can H R world message a false n

/-- No metadata make module `a` answer for the message. -/
def NeverAnswers (H : Bytes → Bytes) (R : Recover) (world : Addr → Option IsmContract) (message : Bytes) (a : Addr) :
    Prop :=
  ∀ depth md b, askIsm H R world depth a md message ≠ .ok b

/-- Some metadata of at most `n` bytes make module `a` approve the message. -/
def CanApprove (H : Bytes → Bytes) (R : Recover) (world : Addr → Option IsmContract) (message : Bytes) (a : Addr)
    (n : Nat) : Prop :=
  ∃ depth md, md.length ≤ n ∧ askIsm H R world depth a md message = .ok true

end Hpl.Spec
