import Verif.Model.Mailbox
import Verif.Model.Tx
import Verif.Lemmas.Coins
import Verif.Lemmas.Message
import Verif.Lemmas.Packages

/-! Lemmas about the mailbox model. -/

namespace Hpl.Mailbox

theorem expectSet_ok {o : Option Addr} {a : Addr} : expectSet o = .ok a ↔ o = some a := by
  unfold expectSet
  cases o <;> simp

theorem toMsg_ok {C : Codec} {m : DispatchMsg} {v : UInt8} {n o : UInt32} {sender : Addr}
    {msg : Message} :
    toMsg C m v n o sender = .ok msg ↔
      ∃ h, bech32ToH256 C sender = .ok h ∧ msg = ⟨v, n, o, h, m.dest, m.recipient, m.body⟩ := by
  unfold toMsg
  rw [bind_eq_ok]
  simp only [pure_eq_ok, Except.ok.injEq, eq_comm]

theorem length_bech32ToH256 {C : Codec} {a : Addr} {h : Bytes} (hh : bech32ToH256 C a = .ok h) :
    h.length = 32 := by
  unfold bech32ToH256 at hh
  obtain ⟨raw, _, h2⟩ := bind_eq_ok.1 hh
  exact padLeft32_length h2

theorem nonceSucc_ok {n n' : UInt32} :
    nonceSucc n = .ok n' ↔ n'.toNat = n.toNat + 1 := by
  unfold nonceSucc
  have hn := n.toNat_lt
  have hn' := n'.toNat_lt
  split
  · rename_i h
    have hs : (n + 1).toNat = n.toNat + 1 := by
      rw [UInt32.toNat_add]
      simpa using h
    simp only [Except.ok.injEq]
    constructor
    · rintro rfl; exact hs
    · intro h2; exact UInt32.toNat_inj.1 (by rw [hs, h2])
  · rename_i h
    constructor
    · intro h2; cases h2
    · intro h2; simp only [Nat.reducePow] at h; omega

theorem payFees_ok {a r : Coins} {fees : List Coin} :
    payFees a fees = .ok r ↔ Coins.subAll a fees = .ok r := by
  unfold payFees
  cases Coins.subAll a fees <;> simp

/-- When dispatch succeeds and what it then does. -/
theorem dispatch_ok {H : Bytes → Bytes} {C : Codec} {env : Env} {s : State} {sender : Addr}
    {funds : List Coin} {m : DispatchMsg} {s' : State} {r : Response} :
    dispatch H C env s sender funds m = .ok (s', r) ↔
      ∃ h32 dflt hook required fees attached rest n,
        m.recipient.length = 32 ∧
        bech32ToH256 C sender = .ok h32 ∧
        s.config.defaultHook = some dflt ∧
        getHookAddr env.valid m dflt = .ok hook ∧
        s.config.requiredHook = some required ∧
        env.quote required (m.metadata.getD [])
          (Message.encode ⟨version, s.nonce, s.config.localDomain, h32, m.dest, m.recipient,
            m.body⟩) = .ok fees ∧
        Coins.tryFrom funds = .ok attached ∧
        Coins.subAll attached fees = .ok rest ∧
        n.toNat = s.nonce.toNat + 1 ∧
        s' = { s with
          nonce := n
          latest := some (H (Message.encode ⟨version, s.nonce, s.config.localDomain, h32, m.dest,
            m.recipient, m.body⟩)) } ∧
        r = { msgs := [.execute required (.postDispatch (m.metadata.getD [])
                  (Message.encode ⟨version, s.nonce, s.config.localDomain, h32, m.dest,
                    m.recipient, m.body⟩)) fees,
                .execute hook (.postDispatch (m.metadata.getD [])
                  (Message.encode ⟨version, s.nonce, s.config.localDomain, h32, m.dest,
                    m.recipient, m.body⟩)) (Coins.toVec rest)]
              events := [.dispatchId (H (Message.encode ⟨version, s.nonce, s.config.localDomain,
                  h32, m.dest, m.recipient, m.body⟩)),
                .dispatch h32 m.dest m.recipient (Message.encode ⟨version, s.nonce,
                  s.config.localDomain, h32, m.dest, m.recipient, m.body⟩)]
              data := some (H (Message.encode ⟨version, s.nonce, s.config.localDomain, h32, m.dest,
                m.recipient, m.body⟩)) } := by
  unfold dispatch
  constructor
  · intro h
    obtain ⟨_, h1, h⟩ := bind_eq_ok.1 h
    obtain ⟨msg, h2, h⟩ := bind_eq_ok.1 h
    obtain ⟨dflt, h3, h⟩ := bind_eq_ok.1 h
    obtain ⟨hook, h4, h⟩ := bind_eq_ok.1 h
    obtain ⟨required, h5, h⟩ := bind_eq_ok.1 h
    obtain ⟨fees, h6, h⟩ := bind_eq_ok.1 h
    obtain ⟨attached, h7, h⟩ := bind_eq_ok.1 h
    obtain ⟨rest, h8, h⟩ := bind_eq_ok.1 h
    obtain ⟨n, h9, h⟩ := bind_eq_ok.1 h
    rw [ensure_eq_ok, decide_eq_true_eq] at h1
    obtain ⟨h32, hb, rfl⟩ := toMsg_ok.1 h2
    have h8' := payFees_ok.1 h8
    simp only [pure_eq_ok, Except.ok.injEq, Prod.mk.injEq, Message.id] at h
    exact ⟨h32, dflt, hook, required, fees, attached, rest, n, h1, hb, expectSet_ok.1 h3, h4,
      expectSet_ok.1 h5, h6, h7, h8', nonceSucc_ok.1 h9, h.1.symm, h.2.symm⟩
  · rintro ⟨h32, dflt, hook, required, fees, attached, rest, n, h1, h2, h3, h4, h5, h6, h7, h8, h9,
      rfl, rfl⟩
    rw [toMsg_ok.2 ⟨h32, h2, rfl⟩, expectSet_ok.2 h3, expectSet_ok.2 h5]
    simp only [h1, decide_true, ensure_true, ok_bind, h4, h6, h7, payFees_ok.2 h8, pure_eq_ok,
      nonceSucc_ok.2 h9, Message.id]

/-- When process succeeds and what it then does. -/
theorem process_ok {H : Bytes → Bytes} {C : Codec} {env : Env} {s : State} {sender : Addr}
    {metadata message : Bytes} {s' : State} {r : Response} :
    process H C env s sender metadata message = .ok (s', r) ↔
      ∃ msg recipient named dflt,
        Message.decode message = .ok msg ∧
        bech32Encode C s.config.hrp msg.recipient = .ok recipient ∧
        msg.version = version ∧ msg.dest = s.config.localDomain ∧
        env.recipientIsm recipient = .ok named ∧
        s.config.defaultIsm = some dflt ∧
        s.deliveries.has (H message) = false ∧
        env.verify (named.getD dflt) metadata message = .ok true ∧
        s' = { s with deliveries := s.deliveries.insert (H message) ⟨sender, env.height⟩ } ∧
        r = { msgs := [.execute recipient (.handle msg.origin msg.sender msg.body) []]
              events := [.processId (H message), .process msg.origin msg.sender msg.recipient] } := by
  unfold process
  constructor
  · intro h
    obtain ⟨msg, h1, h⟩ := bind_eq_ok.1 h
    obtain ⟨recipient, h2, h⟩ := bind_eq_ok.1 h
    obtain ⟨_, h3, h⟩ := bind_eq_ok.1 h
    obtain ⟨_, h4, h⟩ := bind_eq_ok.1 h
    obtain ⟨named, h5, h⟩ := bind_eq_ok.1 h
    obtain ⟨dflt, h6, h⟩ := bind_eq_ok.1 h
    obtain ⟨_, h7, h⟩ := bind_eq_ok.1 h
    obtain ⟨v, h8, h⟩ := bind_eq_ok.1 h
    obtain ⟨_, h9, h⟩ := bind_eq_ok.1 h
    have he := (Message.decode_eq_ok.1 h1).1
    simp only [Message.id, he, pure_eq_ok, Except.ok.injEq, Prod.mk.injEq] at h h7 h8
    rw [ensure_eq_ok] at h3 h4 h7 h9
    simp only [decide_eq_true_eq, Bool.not_eq_eq_eq_not, Bool.not_true] at h3 h4 h7
    rw [h9] at h8
    exact ⟨msg, recipient, named, dflt, h1, h2, h3, h4, h5, expectSet_ok.1 h6, h7, h8,
      h.1.symm, h.2.symm⟩
  · rintro ⟨msg, recipient, named, dflt, h1, h2, h3, h4, h5, h6, h7, h8, rfl, rfl⟩
    have he := (Message.decode_eq_ok.1 h1).1
    simp only [h1, ok_bind, h2, h3, h4, decide_true, ensure_true, h5, expectSet_ok.2 h6, Message.id,
      he, h7, Bool.not_false, h8, pure_eq_ok]

/-- The three configuration calls. -/
theorem setDefaultIsm_ok {valid : Addr → Bool} {s s' : State} {sender a : Addr} :
    setDefaultIsm valid s sender a = .ok s' ↔
      s.own.owner = some sender ∧ valid a = true ∧
        s' = { s with config := { s.config with defaultIsm := some a } } := by
  unfold setDefaultIsm
  constructor
  · intro h
    obtain ⟨o, h1, h⟩ := bind_eq_ok.1 h
    obtain ⟨_, h2, h⟩ := bind_eq_ok.1 h
    obtain ⟨_, h3, h⟩ := bind_eq_ok.1 h
    rw [ensure_eq_ok] at h2 h3
    rw [Ownable.getOwner_eq_ok] at h1
    simp only [decide_eq_true_eq] at h2
    exact ⟨by rw [h1, h2], h3, by simpa using h.symm⟩
  · rintro ⟨h1, h2, rfl⟩
    simp [Ownable.getOwner_eq_ok.2 h1, h2]

theorem setDefaultHook_ok {valid : Addr → Bool} {s s' : State} {sender a : Addr} :
    setDefaultHook valid s sender a = .ok s' ↔
      s.own.owner = some sender ∧ valid a = true ∧
        s' = { s with config := { s.config with defaultHook := some a } } := by
  unfold setDefaultHook
  constructor
  · intro h
    obtain ⟨o, h1, h⟩ := bind_eq_ok.1 h
    obtain ⟨_, h2, h⟩ := bind_eq_ok.1 h
    obtain ⟨_, h3, h⟩ := bind_eq_ok.1 h
    rw [ensure_eq_ok] at h2 h3
    rw [Ownable.getOwner_eq_ok] at h1
    simp only [decide_eq_true_eq] at h2
    exact ⟨by rw [h1, h2], h3, by simpa using h.symm⟩
  · rintro ⟨h1, h2, rfl⟩
    simp [Ownable.getOwner_eq_ok.2 h1, h2]

theorem setRequiredHook_ok {valid : Addr → Bool} {s s' : State} {sender a : Addr} :
    setRequiredHook valid s sender a = .ok s' ↔
      s.own.owner = some sender ∧ valid a = true ∧
        s' = { s with config := { s.config with requiredHook := some a } } := by
  unfold setRequiredHook
  constructor
  · intro h
    obtain ⟨o, h1, h⟩ := bind_eq_ok.1 h
    obtain ⟨_, h2, h⟩ := bind_eq_ok.1 h
    obtain ⟨_, h3, h⟩ := bind_eq_ok.1 h
    rw [ensure_eq_ok] at h2 h3
    rw [Ownable.getOwner_eq_ok] at h1
    simp only [decide_eq_true_eq] at h2
    exact ⟨by rw [h1, h2], h3, by simpa using h.symm⟩
  · rintro ⟨h1, h2, rfl⟩
    simp [Ownable.getOwner_eq_ok.2 h1, h2]

/-- All ways an execute call can succeed. -/
theorem execute_cases {H : Bytes → Bytes} {C : Codec} {s s' : State} {c : Call} {r : Response}
    (h : execute H C s c = .ok (s', r)) :
    (∃ m o, c.msg = .ownable m ∧ Ownable.handle c.env.valid s.own c.sender m = .ok o ∧
      s' = { s with own := o } ∧ r = {}) ∨
    (∃ a, c.msg = .setDefaultIsm a ∧ s.own.owner = some c.sender ∧ c.env.valid a = true ∧
      s' = { s with config := { s.config with defaultIsm := some a } } ∧ r = {}) ∨
    (∃ a, c.msg = .setDefaultHook a ∧ s.own.owner = some c.sender ∧ c.env.valid a = true ∧
      s' = { s with config := { s.config with defaultHook := some a } } ∧ r = {}) ∨
    (∃ a, c.msg = .setRequiredHook a ∧ s.own.owner = some c.sender ∧ c.env.valid a = true ∧
      s' = { s with config := { s.config with requiredHook := some a } } ∧ r = {}) ∨
    (∃ m, c.msg = .dispatch m ∧ dispatch H C c.env s c.sender c.funds m = .ok (s', r)) ∨
    (∃ metadata message, c.msg = .process metadata message ∧
      process H C c.env s c.sender metadata message = .ok (s', r)) := by
  unfold execute at h
  split at h
  · rename_i m hm
    obtain ⟨o, h1, h⟩ := bind_eq_ok.1 h
    simp only [pure_eq_ok, Except.ok.injEq, Prod.mk.injEq] at h
    exact .inl ⟨m, o, hm, h1, h.1.symm, h.2.symm⟩
  · rename_i a hm
    obtain ⟨o, h1, h⟩ := bind_eq_ok.1 h
    simp only [pure_eq_ok, Except.ok.injEq, Prod.mk.injEq] at h
    obtain ⟨h2, h3, h4⟩ := setDefaultIsm_ok.1 h1
    exact .inr (.inl ⟨a, hm, h2, h3, by rw [← h.1, h4], h.2.symm⟩)
  · rename_i a hm
    obtain ⟨o, h1, h⟩ := bind_eq_ok.1 h
    simp only [pure_eq_ok, Except.ok.injEq, Prod.mk.injEq] at h
    obtain ⟨h2, h3, h4⟩ := setDefaultHook_ok.1 h1
    exact .inr (.inr (.inl ⟨a, hm, h2, h3, by rw [← h.1, h4], h.2.symm⟩))
  · rename_i a hm
    obtain ⟨o, h1, h⟩ := bind_eq_ok.1 h
    simp only [pure_eq_ok, Except.ok.injEq, Prod.mk.injEq] at h
    obtain ⟨h2, h3, h4⟩ := setRequiredHook_ok.1 h1
    exact .inr (.inr (.inr (.inl ⟨a, hm, h2, h3, by rw [← h.1, h4], h.2.symm⟩)))
  · rename_i m hm
    exact .inr (.inr (.inr (.inr (.inl ⟨m, hm, h⟩))))
  · rename_i a b hm
    exact .inr (.inr (.inr (.inr (.inr ⟨a, b, hm, h⟩))))

end Hpl.Mailbox
