import Verif.Props.SecpSecurity
import Verif.Spec.Locations

/-! # C105: storage locations of validators -/

namespace Hpl

open Spec Secp
open Keccak (keccak256)

theorem announcement_binding {H : Bytes → Bytes} (hH : ∀ x, (H x).length = 32) {d1 d2 : UInt32} {m1 m2 l1 l2 : Bytes}
    (h : announcementDigest H d1 m1 l1 = announcementDigest H d2 m2 l2) :
    (d1 = d2 ∧ m1 = m2 ∧ l1 = l2) ∨
    ∃ x ∈ announcementInputs H d1 m1 l1, ∃ y ∈ announcementInputs H d2 m2 l2, Collision H x y := by
  unfold announcementDigest at h
  rcases personalDigest_inj h with he | hc
  · rcases eq_or_collision he with he | hc
    · obtain ⟨he, hl⟩ := List.append_inj he (by simp [hH])
      rcases eq_or_collision he with he | hc
      · have he := List.append_cancel_right he
        obtain ⟨h1, h2⟩ := List.append_inj he (by simp [u32be])
        exact .inl ⟨by rw [← ofU32be_u32be d1, h1, ofU32be_u32be], h2, hl⟩
      · exact .inr ⟨_, .head _, _, .head _, hc⟩
    · exact .inr ⟨_, .tail _ (.head _), _, .tail _ (.head _), hc⟩
  · exact .inr ⟨_, .tail _ (.tail _ (.head _)), _, .tail _ (.tail _ (.head _)), hc⟩

theorem shown_eq (s : Va.State) (v : Bytes) : shown s v = (s.locations.get v).getD [] := by
  simp [shown, Va.getAnnounce]

/-- **C105** (safety). A validator with a secret key signed certain checkpoints and announcements and nothing else. After any history
from the making of the contract, each location shown for its address is one the validator signed for this domain and this
mailbox; or it was announced with a signature valid for the validator's secret key, of a digest the validator never signed; or
with such a signature valid for another secret key with the same address; or a string hashed for what the validator signed
and one hashed for the announcement are a collision of keccak256. -/
theorem C105_locations_are_own {g : secp256k1.Point} (hg : IsGenerator g) (norm : Bool) {C : Codec} {valid : Addr → Bool}
    {mailbox : Addr} {dom : UInt32} {raw : Bytes} {s0 : Va.State}
    (h0 : Va.instantiate C valid mailbox (.ok dom) = .ok s0) (hraw : bech32Decode C mailbox = .ok raw)
    (txs : List (List (Tx.Act Va.Call))) (key : ℕ) (signed : Attestation → Prop) {v l : Bytes}
    (hl : l ∈ shown (Tx.history (Va.announce keccak256 (recover norm)) s0 txs).1 v) :
    let mailbox32 := zeros (32 - raw.length) ++ raw
    signed (.announcement dom mailbox32 l) ∨
    (∃ e ∈ (Tx.history (Va.announce keccak256 (recover norm)) s0 txs).2, e.1.validator = v ∧ e.1.location = l ∧
      (LocationForged g norm key signed dom mailbox32 l e.1.signature ∨
        ∃ d, d ≠ key ∧ AddressOf keccak256 g d v ∧ LocationForged g norm d signed dom mailbox32 l e.1.signature)) ∨
    ∃ a, signed a ∧ ∃ x ∈ a.inputs keccak256, ∃ y ∈ announcementInputs keccak256 dom mailbox32 l, Collision keccak256 x y := by
  intro mb
  obtain ⟨h1, h2, _⟩ := C33_announcements_signed (R := recover norm) length_keccak256 h0 hraw txs
  unfold shown at hl
  rw [h2] at hl
  simp only [List.map_cons, List.map_nil, List.flatten_cons, List.flatten_nil, List.append_nil, List.mem_map, List.mem_filter,
    decide_eq_true_eq] at hl
  obtain ⟨p, ⟨hp, rfl⟩, rfl⟩ := hl
  obtain ⟨e, he, rfl⟩ := List.mem_map.1 hp
  by_cases ha : ∃ a, signed a ∧ a.digest keccak256 = announcementDigest keccak256 dom mb e.1.location
  · obtain ⟨a, ha, hd⟩ := ha
    cases a with
    | checkpoint o t r i m =>
      obtain ⟨x, hx, y, hy, hc⟩ := announcement_ne_checkpoint length_keccak256 hd.symm
      exact .inr (.inr ⟨_, ha, y, .tail _ hy, x, hx, hc.1.symm, hc.2.symm⟩)
    | announcement d' m' l' =>
      rcases announcement_binding length_keccak256 hd with ⟨rfl, rfl, rfl⟩ | ⟨x, hx, y, hy, hc⟩
      · exact .inl ha
      · exact .inr (.inr ⟨_, ha, x, hx, y, hy, hc⟩)
  · refine .inr (.inl ⟨e, he, rfl, rfl, ?_⟩)
    have hno : ∀ a, signed a → a.digest keccak256 ≠ announcementDigest keccak256 dom mb e.1.location :=
      fun a h1 h2 => ha ⟨a, h1, h2⟩
    obtain ⟨_, k⟩ := h1 e he
    have k' : SignedBy keccak256 (recover norm) (announcementDigest keccak256 dom mb e.1.location) (e.1.signature.take 65)
        e.1.validator := by
      obtain ⟨w, bit, pk, k1, k2, k3, k4, k5⟩ := k
      refine ⟨w, bit, pk, by rw [List.length_take]; omega, ?_, k3, ?_, k5⟩
      · rw [List.getElem?_take_of_lt (by decide)]
        exact k2
      · rw [List.take_take]
        exact k4
    obtain ⟨d, d1, d2, d3, d4⟩ := (C98_signer hg length_keccak256 norm (length_keccak256 _)
      (by obtain ⟨_, _, _, k1, _⟩ := k; rw [List.length_take]; omega)).1 k'
    by_cases hd : d = key
    · subst hd
      exact .inl ⟨d1, d2, d4, hno⟩
    · exact .inr ⟨d, hd, d3, d1, d2, d4, hno⟩

/-- **C105** (liveness). Whoever has a signature of the validator over a location for this domain and this mailbox, be it the
validator or not, can have the location shown as the validator's last one, if it is not shown already, and nothing changes for
other validators; unless an explicit collision of keccak256 is at hand. -/
theorem C105_anybody_announces {g : secp256k1.Point} (hg : IsGenerator g) (norm : Bool) {C : Codec} {valid : Addr → Bool}
    {mailbox : Addr} {dom : UInt32} {raw : Bytes} {s0 : Va.State}
    (h0 : Va.instantiate C valid mailbox (.ok dom) = .ok s0) (hraw : bech32Decode C mailbox = .ok raw)
    (hlen : raw.length ≤ 32) (txs : List (List (Tx.Act Va.Call))) {key : ℕ} (k1 : 0 < key) (k2 : key < n) {v l sig : Bytes}
    (ha : AddressOf keccak256 g key v)
    (hs : EthSigned g false key (announcementDigest keccak256 dom (zeros (32 - raw.length) ++ raw) l) sig) (sender : Addr) :
    let s := (Tx.history (Va.announce keccak256 (recover norm)) s0 txs).1
    l ∈ shown s v ∨
    (∃ s', Va.announce keccak256 (recover norm) s ⟨sender, v, l, sig⟩ = .ok (s', ()) ∧ shown s' v = shown s v ++ [l] ∧
      ∀ w, w ≠ v → shown s' w = shown s w) ∨
    ∃ w l', l' ∈ shown s w ∧ Collision keccak256 (w ++ l') (v ++ l) := by
  intro s
  obtain ⟨_, h2, _⟩ := C33_announcements_signed (R := recover norm) length_keccak256 h0 hraw txs
  have hmem : ∀ w l', (w, l') ∈ announcements (Tx.history (Va.announce keccak256 (recover norm)) s0 txs).2 → l' ∈ shown s w := by
    intro w l' h
    unfold shown
    rw [h2]
    simp only [List.map_cons, List.map_nil, List.flatten_cons, List.flatten_nil, List.append_nil, List.mem_map, List.mem_filter,
      decide_eq_true_eq]
    exact ⟨_, ⟨h, rfl⟩, rfl⟩
  by_cases hn : (v, l) ∈ announcements (Tx.history (Va.announce keccak256 (recover norm)) s0 txs).2
  · exact .inl (hmem _ _ hn)
  · rcases (C98_announce hg norm h0 hraw hlen txs).2 ⟨sender, v, l, sig⟩ key k1 k2 ha hs hn with ⟨⟨s', u⟩, h⟩ | ⟨q, hq, hc⟩
    · refine .inr (.inl ⟨s', h, ?_, ?_⟩)
      · obtain ⟨_, _, _, rfl⟩ := Va.announce_ok.1 h
        simp only [shown_eq, OMap.get_insert_self, Option.getD_some]
        rfl
      · intro w hw
        obtain ⟨_, _, _, rfl⟩ := Va.announce_ok.1 h
        simp only [shown_eq, OMap.get_insert_ne _ _ hw]
        rfl
    · exact .inr (.inr ⟨q.1, q.2, hmem _ _ hq, hc⟩)

/-- **C105** (persistence). Whatever happens later, the locations shown stay, in the same order, and new ones come after them. -/
theorem C105_shown_for_ever (norm : Bool) (s0 : Va.State) (txs later : List (List (Tx.Act Va.Call))) (v : Bytes) :
    shown (Tx.history (Va.announce keccak256 (recover norm)) s0 txs).1 v <+:
      shown (Tx.history (Va.announce keccak256 (recover norm)) s0 (txs ++ later)).1 v := by
  obtain ⟨new, _, hc⟩ := Tx.history_append (Va.announce keccak256 (recover norm)) s0 txs later
  obtain ⟨_, _, h, _⟩ := va_chain length_keccak256 hc
  rw [shown_eq, shown_eq, h]
  exact List.prefix_append _ _

/-! ## Example: the secret key two announces a location -/

namespace Ex

def locDigest : Bytes := announcementDigest keccak256 7 (zeros (32 - aliceRaw.length) ++ aliceRaw) (ascii "s3://b1")

def locS : ℕ := (fromBE locDigest + secpR * 2) % n

def locSig : Bytes := beN 32 secpR ++ beN 32 locS ++ [27]

def locCall : Va.Call := ⟨"anybody", secpAddr, ascii "s3://b1", locSig⟩

theorem locS_low : 0 < locS ∧ locS ≤ n / 2 := by decide +kernel

theorem loc_signed {g : secp256k1.Point} (hg : IsGenerator g) : EthSigned g false 2 locDigest locSig :=
  ⟨1, secpR, locS, false, secp_signed hg _ locS_low.1, .inl locS_low.2, rfl⟩

end Ex

/-- Somebody else announces it. -/
theorem Ex.loc_shown {g : secp256k1.Point} (hg : IsGenerator g) (norm : Bool) :
    shown (Tx.history (Va.announce keccak256 (Secp.recover norm)) Ex.vaS0 [[.call Ex.locCall []]]).1 Ex.secpAddr = [ascii "s3://b1"] := by
  have hempty : ∀ v, shown Ex.vaS0 v = [] := fun v => by rw [shown_eq]; rfl
  rcases C105_anybody_announces hg norm Ex.vaS0_fresh (raw := Ex.aliceRaw) (by decide +kernel) (by decide) [] (by decide) (by decide) (Ex.secp_address hg)
    (Ex.loc_signed hg) "anybody" with h | ⟨s', h, h', _⟩ | ⟨w, l, h, _⟩
  · exact absurd h (by show _ ∉ shown Ex.vaS0 _; rw [hempty]; exact List.not_mem_nil)
  · have h : Va.announce keccak256 (Secp.recover norm) Ex.vaS0 Ex.locCall = .ok (s', ()) := h
    have : Tx.history (Va.announce keccak256 (Secp.recover norm)) Ex.vaS0 [[.call Ex.locCall []]] = (s', [(Ex.locCall, ())]) := by
      simp only [Tx.history, List.foldl, Tx.exec, Tx.execList, h]
      rfl
    rw [this, h']
    show shown Ex.vaS0 _ ++ _ = _
    rw [hempty]
    rfl
  · exact absurd h (by show _ ∉ shown Ex.vaS0 _; rw [hempty]; exact List.not_mem_nil)

/-- Since it is shown, the holder of the key signed it, or a key or the hash is broken. -/
example {g : secp256k1.Point} (hg : IsGenerator g) (norm : Bool) (signed : Attestation → Prop) :=
  C105_locations_are_own hg norm Ex.vaS0_fresh (raw := Ex.aliceRaw) (by decide +kernel) [[.call Ex.locCall []]] 2 signed (v := Ex.secpAddr)
    (l := ascii "s3://b1") (by rw [Ex.loc_shown hg norm]; simp)

end Hpl
