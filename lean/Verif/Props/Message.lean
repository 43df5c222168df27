import Verif.Lemmas.Message
import Verif.Spec.Message

/-! # C01, C02: the message wire format -/

namespace Hpl

/-- C01. Encode/decode are mutually inverse between messages with 32-byte addresses and byte
strings of length at least 77; shorter input panics (aborts the call). -/
theorem C01_message_roundtrip :
    (∀ m : Message, m.sender.length = 32 → m.recipient.length = 32 →
      Message.decode m.encode = .ok m) ∧
    (∀ v : Bytes, 77 ≤ v.length → ∃ m, Message.decode v = .ok m ∧ m.encode = v ∧
      m.sender.length = 32 ∧ m.recipient.length = 32) ∧
    (∀ v : Bytes, v.length < 77 → ∃ t, Message.decode v = .error (.panic t)) := by
  refine ⟨fun m hs hr => Message.decode_encode m hs hr, ?_, fun v h => Message.decode_short h⟩
  intro v h
  obtain ⟨m, hm⟩ := Message.decode_long h
  exact ⟨m, hm, Message.decode_eq_ok.1 hm⟩

/-- Whatever the decoder returns matches the documented layout of its input. -/
theorem wireFormat_of_decode {b : Bytes} {m : Message} (hd : Message.decode b = .ok m) :
    Spec.WireFormat m b := by
  have he := (Message.decode_eq_ok.1 hd)
  have hl : b.length = 77 + m.body.length := by
    rw [← he.1]; exact Message.length_encode m he.2.1 he.2.2
  unfold Message.decode at hd
  rw [slice_ok (by decide) (by omega), slice_ok (by decide) (by omega),
    slice_ok (by decide) (by omega), slice_ok (by decide) (by omega),
    slice_ok (by decide) (by omega), sliceFrom_ok (by omega)] at hd
  obtain ⟨x, h0, hd⟩ := bind_eq_ok.1 hd
  simp only [ok_bind, pure_eq_ok, Except.ok.injEq] at hd
  have conv : ∀ (x : Bytes) (y : UInt32), x.length = 4 → ofU32be x = y →
      fromBE x = y.toNat := by
    intro x y hx hxy
    have := fromBE_lt x
    rw [hx] at this
    rw [← hxy, ofU32be, UInt32.toNat_ofNat']
    exact (Nat.mod_eq_of_lt (by simpa using this)).symm
  have hv : x = m.version := congrArg Message.version hd
  have hn : ofU32be ((b.drop 1).take 4) = m.nonce := congrArg Message.nonce hd
  have ho : ofU32be ((b.drop 5).take 4) = m.origin := congrArg Message.origin hd
  have hde : ofU32be ((b.drop 41).take 4) = m.dest := congrArg Message.dest hd
  refine ⟨hl, ?_, conv _ _ (by simp; omega) hn, conv _ _ (by simp; omega) ho,
    congrArg Message.sender hd, conv _ _ (by simp; omega) hde,
    congrArg Message.recipient hd, congrArg Message.body hd⟩
  rw [← hv]
  unfold index at h0
  split at h0
  · rename_i y hy; cases h0; exact hy
  · cases h0

/-- C01 (layout). The encoder writes exactly the documented layout, and nothing else has it. -/
theorem C01_message_layout (m : Message) (hs : m.sender.length = 32)
    (hr : m.recipient.length = 32) (b : Bytes) :
    Message.encode m = b ↔ Spec.WireFormat m b := by
  constructor
  · rintro rfl; exact wireFormat_of_decode (Message.decode_encode m hs hr)
  · intro h
    obtain ⟨m', hm', he, _⟩ := C01_message_roundtrip.2.1 b (by have := h.size; omega)
    have k' := wireFormat_of_decode hm'
    have : m = m' := by
      obtain ⟨_, a1, a2, a3, a4, a5, a6, a7⟩ := h
      obtain ⟨_, b1, b2, b3, b4, b5, b6, b7⟩ := k'
      cases m; cases m'
      simp only [Message.mk.injEq]
      simp only at *
      refine ⟨by simp_all, UInt32.toNat_inj.1 (by omega), UInt32.toNat_inj.1 (by omega),
        by simp_all, UInt32.toNat_inj.1 (by omega), by simp_all, by simp_all⟩
    rw [this, he]

/-- Bytes with the documented layout decode to the message laid out. -/
theorem decode_of_wireFormat {b : Bytes} {m : Message} (h : Spec.WireFormat m b) :
    Message.decode b = .ok m := by
  have hs : m.sender.length = 32 := by
    rw [← h.sender]; have := h.size; simp; omega
  have hr : m.recipient.length = 32 := by
    rw [← h.recipient]; have := h.size; simp; omega
  rw [← (C01_message_layout m hs hr b).2 h]
  exact Message.decode_encode m hs hr

/-- C02. Equal ids mean equal messages, or the two encodings are a collision of the hash. -/
theorem C02_id_binding (H : Bytes → Bytes) (a b : Message)
    (ha : a.sender.length = 32) (ha' : a.recipient.length = 32)
    (hb : b.sender.length = 32) (hb' : b.recipient.length = 32)
    (h : a.id H = b.id H) :
    a = b ∨ (a.encode ≠ b.encode ∧ H a.encode = H b.encode) := by
  by_cases he : a.encode = b.encode
  · exact .inl (Message.encode_inj ha ha' hb hb' he)
  · exact .inr ⟨he, h⟩

/-! Concrete cases meeting the hypotheses. -/

/-- The message of the repository's own unit test, message.rs 72-94 (body "Hello!"). -/
def exampleMessage : Message where
  version := 0
  nonce := 8528
  origin := 44787
  sender := zeros 12 ++ List.replicate 20 0x47
  dest := 11155111
  recipient := zeros 12 ++ List.replicate 20 0x5d
  body := [0x48, 0x65, 0x6c, 0x6c, 0x6f, 0x21]

example : exampleMessage.sender.length = 32 ∧ exampleMessage.recipient.length = 32 := by decide

example : Message.decode exampleMessage.encode = .ok exampleMessage := by decide

example : (exampleMessage.encode.take 9) = [0, 0, 0, 0x21, 0x50, 0, 0, 0xae, 0xf3] := by decide

/-- C02's hypotheses are met by two different messages under a (bad) constant hash, and the
second disjunct is then the one that holds. -/
example : ∃ a b : Message, a ≠ b ∧ a.sender.length = 32 ∧ a.recipient.length = 32 ∧
    b.sender.length = 32 ∧ b.recipient.length = 32 ∧ a.id (fun _ => []) = b.id (fun _ => []) :=
  ⟨exampleMessage, { exampleMessage with nonce := 1 }, by decide, by decide, by decide, by decide,
    by decide, rfl⟩

end Hpl
