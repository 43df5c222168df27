import Verif.Lemmas.Events
import Verif.Lemmas.Mailbox
import Verif.Props.Listing
import Verif.Props.Mailbox
import Verif.Props.MerkleHook
import Verif.Props.Va

/-! # Events tell what the contracts answer (C79) -/

namespace Hpl

open Spec Events

theorem hexText_inj {a b : Bytes} (h : hexText a = hexText b) : a = b := by
  have h1 := hex_read a
  rw [h, hex_read b] at h1
  cases h1
  rfl

section MailboxEvents

open Mailbox

variable {H : Bytes → Bytes} {C : Codec}

/-- The last ownership event. -/
def Spec.lastOwnership (evs : List TextEvent) : Option TextEvent :=
  (evs.filter (fun e => e.ty = "hpl_ownable::init" ∨ e.ty = "hpl_ownable::revoke" ∨ e.ty = "hpl_ownable::claim")).getLast?

/-- What the events of a mailbox say about its state. -/
structure MailboxTold (H : Bytes → Bytes) (domain : UInt32) (owner : Addr) (s : State) (evs : List TextEvent)
    (ds ps : List Message) : Prop where
  local_ : s.config.localDomain = domain
  disp : ofType "mailbox_dispatch" evs =
    ds.map (fun m => ofMailbox (.dispatch m.sender m.dest m.recipient m.encode))
  dispId : ofType "mailbox_dispatch_id" evs = ds.map (fun m => ofMailbox (.dispatchId (H m.encode)))
  nonce : s.nonce.toNat = ds.length
  wire : ∀ k m, ds[k]? = some m → WireFormat m m.encode ∧ m.version = 3 ∧ m.nonce.toNat = k ∧ m.origin = domain
  last : s.latest = ds.getLast?.map (fun m => H m.encode)
  proc : ofType "mailbox_process" evs = ps.map (fun m => ofMailbox (.process m.origin m.sender m.recipient))
  procId : ofType "mailbox_process_id" evs = ps.map (fun m => ofMailbox (.processId (H m.encode)))
  wireP : ∀ m ∈ ps, WireFormat m m.encode ∧ m.version = 3 ∧ m.dest = domain
  once : (ps.map (fun m => H m.encode)).Nodup
  dlv : ∀ i, s.deliveries.has i = true ↔ i ∈ ps.map (fun m => H m.encode)
  ism : s.config.defaultIsm = latest "mailbox_default_ism_set" "new_default_ism" evs
  hook : s.config.defaultHook = latest "mailbox_default_hook_set" "new_default_hook" evs
  required : s.config.requiredHook = latest "mailbox_required_hook_set" "new_required_hook" evs
  own : s.own.owner = some ((latest "hpl_ownable::claim" "owner" evs).getD owner)
  pend : s.own.pending = (lastOwnership evs).bind (attr "next_owner")

theorem lastOwnership_append_none {a b : List TextEvent}
    (h : b.filter (fun e => e.ty = "hpl_ownable::init" ∨ e.ty = "hpl_ownable::revoke" ∨ e.ty = "hpl_ownable::claim") = []) :
    lastOwnership (a ++ b) = lastOwnership a := by
  unfold lastOwnership
  rw [List.filter_append, h, List.append_nil]

theorem lastOwnership_snoc {a : List TextEvent} {e : TextEvent}
    (h : e.ty = "hpl_ownable::init" ∨ e.ty = "hpl_ownable::revoke" ∨ e.ty = "hpl_ownable::claim") :
    lastOwnership (a ++ [e]) = some e := by
  unfold lastOwnership
  rw [List.filter_append]
  simp [h]

/-- Events of other types change nothing that is told. -/
theorem MailboxTold.same {domain : UInt32} {owner : Addr} {s s' : State} {evs new : List TextEvent} {ds ps : List Message}
    (I : MailboxTold H domain owner s evs ds ps)
    (hn : s'.nonce = s.nonce) (hl : s'.latest = s.latest) (hd : s'.deliveries = s.deliveries)
    (hdom : s'.config.localDomain = s.config.localDomain)
    (n1 : ofType "mailbox_dispatch" new = []) (n2 : ofType "mailbox_dispatch_id" new = [])
    (n3 : ofType "mailbox_process" new = []) (n4 : ofType "mailbox_process_id" new = [])
    (h1 : s'.config.defaultIsm = latest "mailbox_default_ism_set" "new_default_ism" (evs ++ new))
    (h2 : s'.config.defaultHook = latest "mailbox_default_hook_set" "new_default_hook" (evs ++ new))
    (h3 : s'.config.requiredHook = latest "mailbox_required_hook_set" "new_required_hook" (evs ++ new))
    (h4 : s'.own.owner = some ((latest "hpl_ownable::claim" "owner" (evs ++ new)).getD owner))
    (h5 : s'.own.pending = (lastOwnership (evs ++ new)).bind (attr "next_owner")) :
    MailboxTold H domain owner s' (evs ++ new) ds ps where
  local_ := hdom.trans I.local_
  disp := by rw [ofType_append, n1, List.append_nil, I.disp]
  dispId := by rw [ofType_append, n2, List.append_nil, I.dispId]
  nonce := by rw [hn, I.nonce]
  wire := I.wire
  last := hl.trans I.last
  proc := by rw [ofType_append, n3, List.append_nil, I.proc]
  procId := by rw [ofType_append, n4, List.append_nil, I.procId]
  wireP := I.wireP
  once := I.once
  dlv := by rw [hd]; exact I.dlv
  ism := h1
  hook := h2
  required := h3
  own := h4
  pend := h5

theorem mailbox_told {domain : UInt32} {owner : Addr} {s0 s : State} {log : List (Call × (Response × List TextEvent))}
    (hc : Tx.Chain (logged (execute H C) Events.mailbox) s0 log s) {lower : Char → Bool} {valid : Addr → Bool} {hrp : String}
    (h0 : instantiate lower valid hrp domain owner = .ok s0) :
    ∃ ds ps, MailboxTold H domain owner s (all log) ds ps := by
  refine logged_induct (fun s log => ∃ ds ps, MailboxTold H domain owner s (all log) ds ps) hc ?_ ?_
  · rw [instantiate_ok h0]
    refine ⟨[], [], ?_⟩
    constructor <;> first | rfl | simp [OMap.has, OMap.empty, OMap.get, findKey]
  · rintro s c s' r log ⟨ds, ps, I⟩ hx
    rw [all_snoc]
    rcases execute_cases hx with ⟨m, o, hm, ho, rfl, rfl⟩ | ⟨a, hm, _, _, rfl, rfl⟩ | ⟨a, hm, _, _, rfl, rfl⟩ |
      ⟨a, hm, _, _, rfl, rfl⟩ | ⟨m, hm, hd⟩ | ⟨md, b, hm, hp⟩
    · have hev : Events.mailbox s c {} = [ownable c.sender m] := by unfold Events.mailbox; rw [hm]
      rw [hev]
      cases m with
      | initTransfer next =>
        obtain ⟨_, g1, g2, rfl⟩ := Ownable.handle_init_ok.1 ho
        refine ⟨ds, ps, I.same rfl rfl rfl rfl rfl rfl rfl rfl ?_ ?_ ?_ ?_ ?_⟩
        · rw [latest_append_none rfl]; exact I.ism
        · rw [latest_append_none rfl]; exact I.hook
        · rw [latest_append_none rfl]; exact I.required
        · rw [latest_append_none rfl]; exact I.own
        · rw [lastOwnership_snoc (.inl rfl)]; rfl
      | revoke =>
        obtain ⟨g1, g2, rfl⟩ := Ownable.handle_revoke_ok.1 ho
        refine ⟨ds, ps, I.same rfl rfl rfl rfl rfl rfl rfl rfl ?_ ?_ ?_ ?_ ?_⟩
        · rw [latest_append_none rfl]; exact I.ism
        · rw [latest_append_none rfl]; exact I.hook
        · rw [latest_append_none rfl]; exact I.required
        · rw [latest_append_none rfl]; exact I.own
        · rw [lastOwnership_snoc (.inr (.inl rfl))]; rfl
      | claim =>
        obtain ⟨g1, rfl⟩ := Ownable.handle_claim_ok.1 ho
        refine ⟨ds, ps, I.same rfl rfl rfl rfl rfl rfl rfl rfl ?_ ?_ ?_ ?_ ?_⟩
        · rw [latest_append_none rfl]; exact I.ism
        · rw [latest_append_none rfl]; exact I.hook
        · rw [latest_append_none rfl]; exact I.required
        · rw [latest_snoc rfl]; rfl
        · rw [lastOwnership_snoc (.inr (.inr rfl))]; rfl
    · have hev : Events.mailbox s c {} =
          [⟨"mailbox_default_ism_set", [("owner", c.sender), ("new_default_ism", a)]⟩] := by unfold Events.mailbox; rw [hm]
      rw [hev]
      refine ⟨ds, ps, I.same rfl rfl rfl rfl rfl rfl rfl rfl ?_ ?_ ?_ ?_ ?_⟩
      · rw [latest_snoc rfl]; rfl
      · rw [latest_append_none rfl]; exact I.hook
      · rw [latest_append_none rfl]; exact I.required
      · rw [latest_append_none rfl]; exact I.own
      · rw [lastOwnership_append_none rfl]; exact I.pend
    · have hev : Events.mailbox s c {} =
          [⟨"mailbox_default_hook_set", [("owner", c.sender), ("new_default_hook", a)]⟩] := by unfold Events.mailbox; rw [hm]
      rw [hev]
      refine ⟨ds, ps, I.same rfl rfl rfl rfl rfl rfl rfl rfl ?_ ?_ ?_ ?_ ?_⟩
      · rw [latest_append_none rfl]; exact I.ism
      · rw [latest_snoc rfl]; rfl
      · rw [latest_append_none rfl]; exact I.required
      · rw [latest_append_none rfl]; exact I.own
      · rw [lastOwnership_append_none rfl]; exact I.pend
    · have hev : Events.mailbox s c {} =
          [⟨"mailbox_required_hook_set", [("owner", c.sender), ("new_required_hook", a)]⟩] := by
        unfold Events.mailbox; rw [hm]
      rw [hev]
      refine ⟨ds, ps, I.same rfl rfl rfl rfl rfl rfl rfl rfl ?_ ?_ ?_ ?_ ?_⟩
      · rw [latest_append_none rfl]; exact I.ism
      · rw [latest_append_none rfl]; exact I.hook
      · rw [latest_snoc rfl]; rfl
      · rw [latest_append_none rfl]; exact I.own
      · rw [lastOwnership_append_none rfl]; exact I.pend
    · obtain ⟨h32, dflt, hook, required, fees, attached, rest, n, hr, hb, _, _, _, _, _, _, hn, rfl, rfl⟩ := dispatch_ok.1 hd
      have hev : ∀ r, Events.mailbox s c r = r.events.map ofMailbox := by intro r; unfold Events.mailbox; rw [hm]
      rw [hev]
      generalize hmsg : (⟨version, s.nonce, s.config.localDomain, h32, m.dest, m.recipient, m.body⟩ : Message) = msg
      have hw : WireFormat msg msg.encode := by
        refine wireFormat_of_decode (Message.decode_encode _ ?_ ?_) <;> rw [← hmsg]
        · exact length_bech32ToH256 hb
        · exact hr
      have e1 : h32 = msg.sender := by rw [← hmsg]
      have e2 : m.dest = msg.dest := by rw [← hmsg]
      have e3 : m.recipient = msg.recipient := by rw [← hmsg]
      refine ⟨ds ++ [msg], ps, ?_⟩
      constructor
      · exact I.local_
      · rw [ofType_append, I.disp, List.map_append]
        rw [e1, e2, e3]
        rfl
      · rw [ofType_append, I.dispId, List.map_append]
        rfl
      · rw [List.length_append, List.length_singleton]
        show n.toNat = _
        rw [hn, I.nonce]
      · intro k x hk
        rw [List.getElem?_append] at hk
        split at hk
        · exact I.wire k x hk
        · rename_i hlt
          obtain ⟨hk0, rfl⟩ : k - ds.length = 0 ∧ msg = x := by
            rw [List.getElem?_singleton] at hk
            split at hk
            · rename_i h; exact ⟨h, Option.some.inj hk⟩
            · cases hk
          refine ⟨hw, ?_, ?_, ?_⟩
          · rw [← hmsg]; rfl
          · have : msg.nonce = s.nonce := by rw [← hmsg]
            rw [this, I.nonce]; omega
          · rw [← hmsg]; exact I.local_
      · simp
      · rw [ofType_append, I.proc]
        show _ ++ [] = _
        rw [List.append_nil]
      · rw [ofType_append, I.procId]
        show _ ++ [] = _
        rw [List.append_nil]
      · exact I.wireP
      · exact I.once
      · exact I.dlv
      · rw [latest_append_none rfl]; exact I.ism
      · rw [latest_append_none rfl]; exact I.hook
      · rw [latest_append_none rfl]; exact I.required
      · rw [latest_append_none rfl]; exact I.own
      · rw [lastOwnership_append_none rfl]; exact I.pend
    · obtain ⟨msg, recipient, named, dflt, hdec, _, hv, hdst, _, _, hnew, _, rfl, rfl⟩ := process_ok.1 hp
      have hev : ∀ r, Events.mailbox s c r = r.events.map ofMailbox := by intro r; unfold Events.mailbox; rw [hm]
      rw [hev]
      have he : msg.encode = b := (Message.decode_eq_ok.1 hdec).1
      have hw : WireFormat msg msg.encode := by rw [he]; exact wireFormat_of_decode hdec
      refine ⟨ds, ps ++ [msg], ?_⟩
      constructor
      · exact I.local_
      · rw [ofType_append, I.disp]
        show _ ++ [] = _
        rw [List.append_nil]
      · rw [ofType_append, I.dispId]
        show _ ++ [] = _
        rw [List.append_nil]
      · exact I.nonce
      · exact I.wire
      · exact I.last
      · rw [ofType_append, I.proc, List.map_append]; rfl
      · rw [ofType_append, I.procId, List.map_append, List.map_singleton, he]; rfl
      · intro x hx
        rcases List.mem_append.1 hx with hx | hx
        · exact I.wireP x hx
        · rw [List.mem_singleton.1 hx]
          exact ⟨hw, hv, hdst.trans I.local_⟩
      · rw [List.map_append, List.nodup_append]
        refine ⟨I.once, by simp, ?_⟩
        intro x hx y hy
        simp only [List.map_cons, List.map_nil, List.mem_singleton] at hy
        rintro rfl
        have := (I.dlv x).2 hx
        rw [hy, he, hnew] at this
        cases this
      · intro i
        rw [List.map_append, List.mem_append, ← I.dlv]
        simp only [List.map_cons, List.map_nil, List.mem_singleton, he]
        show (OMap.insert _ _ _).has i = true ↔ _
        rw [OMap.has_insert]
        simp [or_comm]
      · rw [latest_append_none rfl]; exact I.ism
      · rw [latest_append_none rfl]; exact I.hook
      · rw [latest_append_none rfl]; exact I.required
      · rw [latest_append_none rfl]; exact I.own
      · rw [lastOwnership_append_none rfl]; exact I.pend

/-- **C79**, mailbox. After any history of transactions a reader of its events knows what the mailbox answers. The number of
`mailbox_dispatch` events is the nonce. The one at position `k` shows a message in wire format with version 3, nonce `k` and
the domain of the mailbox as origin; the other attributes agree with it and the `mailbox_dispatch_id` event at the same
position shows its id; the last of these ids is the latest id. A message counts as delivered exactly if there is a
`mailbox_process_id` event with its id; no id appears twice, and the `mailbox_process` event at the same position shows
origin, sender and recipient of a message with this id addressed to the domain. Default ISM, hooks, owner and pending owner
are what the last event about them says. -/
theorem C79_mailbox_events {lower : Char → Bool} {valid : Addr → Bool} {hrp : String} {domain : UInt32} {owner : Addr}
    {s0 : State} (h0 : instantiate lower valid hrp domain owner = .ok s0) (txs : List (List (Tx.Act Call))) :
    let s := (Tx.history (logged (execute H C) Events.mailbox) s0 txs).1
    let evs := all (Tx.history (logged (execute H C) Events.mailbox) s0 txs).2
    s = (Tx.history (execute H C) s0 txs).1 ∧
    (ofType "mailbox_dispatch" evs).length = (getNonce s).toNat ∧
    (∀ k e, (ofType "mailbox_dispatch" evs)[k]? = some e →
      ∃ m b e', WireFormat m b ∧ m.version = 3 ∧ m.nonce.toNat = k ∧ m.origin = domain ∧
        HexAt "message" e b ∧ HexAt "sender" e m.sender ∧ NumberAt "destination" e m.dest.toNat ∧
        HexAt "recipient" e m.recipient ∧
        (ofType "mailbox_dispatch_id" evs)[k]? = some e' ∧ HexAt "message_id" e' (H b)) ∧
    (ofType "mailbox_dispatch_id" evs).length = (getNonce s).toNat ∧
    (∀ i, getLatestDispatchId s = .ok i ↔ latest "mailbox_dispatch_id" "message_id" evs = some (hexText i)) ∧
    (∀ i, getDelivered s i = true ↔ ∃ e ∈ ofType "mailbox_process_id" evs, HexAt "message_id" e i) ∧
    ((ofType "mailbox_process_id" evs).map (attr "message_id")).Nodup ∧
    (ofType "mailbox_process" evs).length = (ofType "mailbox_process_id" evs).length ∧
    (∀ (k : Nat) e e', (ofType "mailbox_process" evs)[k]? = some e → (ofType "mailbox_process_id" evs)[k]? = some e' →
      ∃ m b, WireFormat m b ∧ m.version = 3 ∧ m.dest = domain ∧ HexAt "message_id" e' (H b) ∧
        NumberAt "origin" e m.origin.toNat ∧ HexAt "sender" e m.sender ∧ HexAt "recipient" e m.recipient) ∧
    (∀ a, getDefaultIsm s = .ok a ↔ latest "mailbox_default_ism_set" "new_default_ism" evs = some a) ∧
    (∀ a, getDefaultHook s = .ok a ↔ latest "mailbox_default_hook_set" "new_default_hook" evs = some a) ∧
    (∀ a, getRequiredHook s = .ok a ↔ latest "mailbox_required_hook_set" "new_required_hook" evs = some a) ∧
    Ownable.getOwner s.own = .ok ((latest "hpl_ownable::claim" "owner" evs).getD owner) ∧
    s.own.pending = (lastOwnership evs).bind (attr "next_owner") := by
  intro s evs
  obtain ⟨ds, ps, I⟩ := mailbox_told (Tx.history_chain (logged (execute H C) Events.mailbox) s0 txs) h0
  change MailboxTold H domain owner s evs ds ps at I
  have hset : ∀ (o : Option Addr) a, expectSet o = .ok a ↔ o = some a := fun _ _ => expectSet_ok
  refine ⟨(history_logged _ _ s0 txs).1.symm, ?_, ?_, ?_, ?_, ?_, ?_, ?_, ?_, ?_, ?_, ?_, ?_, I.pend⟩
  · rw [I.disp, List.length_map]; exact I.nonce.symm
  · intro k e hk
    rw [I.disp, List.getElem?_map, Option.map_eq_some_iff] at hk
    obtain ⟨m, hm, rfl⟩ := hk
    obtain ⟨w1, w2, w3, w4⟩ := I.wire k m hm
    refine ⟨m, m.encode, ofMailbox (.dispatchId (H m.encode)), w1, w2, w3, w4, ?_, ?_, ?_, ?_, ?_, ?_⟩
    · show some (hex _) = _; rw [hex_eq]
    · show some (hex _) = _; rw [hex_eq]
    · exact ⟨_, rfl, number_decimal _⟩
    · show some (hex _) = _; rw [hex_eq]
    · rw [I.dispId, List.getElem?_map, hm]; rfl
    · show some (hex _) = _; rw [hex_eq]
  · rw [I.dispId, List.length_map]; exact I.nonce.symm
  · intro i
    unfold getLatestDispatchId latest
    rw [I.last, I.dispId, List.getLast?_map]
    cases hl : ds.getLast? with
    | none => simp
    | some m =>
      show (Except.ok (H m.encode) : Res Bytes) = .ok i ↔ some (hex (H m.encode)) = some (hexText i)
      rw [hex_eq]
      constructor
      · intro h; cases h; rfl
      · intro h; rw [hexText_inj (Option.some.inj h)]
  · intro i
    unfold getDelivered
    rw [I.dlv, I.procId]
    simp only [List.mem_map]
    constructor
    · rintro ⟨m, hm, rfl⟩
      exact ⟨_, ⟨m, hm, rfl⟩, by show some (hex _) = _; rw [hex_eq]⟩
    · rintro ⟨e, ⟨m, hm, rfl⟩, he⟩
      refine ⟨m, hm, ?_⟩
      change some (hex _) = _ at he
      rw [hex_eq] at he
      exact hexText_inj (Option.some.inj he)
  · rw [I.procId, List.map_map]
    have : (attr "message_id" ∘ fun m : Message => ofMailbox (.processId (H m.encode))) =
        (fun b => some (hexText b)) ∘ fun m : Message => H m.encode := by
      funext m
      show some (hex _) = _; rw [hex_eq]; rfl
    rw [this, ← List.map_map]
    exact I.once.map (fun a b h => hexText_inj (Option.some.inj h))
  · rw [I.proc, I.procId, List.length_map, List.length_map]
  · intro k e e' hk hk'
    rw [I.proc, List.getElem?_map, Option.map_eq_some_iff] at hk
    obtain ⟨m, hm, rfl⟩ := hk
    rw [I.procId, List.getElem?_map, hm] at hk'
    cases hk'
    obtain ⟨w1, w2, w3⟩ := I.wireP m (List.mem_of_getElem? hm)
    refine ⟨m, m.encode, w1, w2, w3, ?_, ⟨_, rfl, number_decimal _⟩, ?_, ?_⟩
    · show some (hex _) = _; rw [hex_eq]
    · show some (hex _) = _; rw [hex_eq]
    · show some (hex _) = _; rw [hex_eq]
  · intro a; unfold getDefaultIsm; rw [hset, I.ism]
  · intro a; unfold getDefaultHook; rw [hset, I.hook]
  · intro a; unfold getRequiredHook; rw [hset, I.required]
  · rw [Ownable.getOwner_eq_ok]; exact I.own

/-- In a history with a rolled back and a refused processing: one dispatch, one delivery, and three settings. -/
example :
    let h := Tx.history (logged (execute toyHash Bech.codec) Events.mailbox) Ex.s0 Ex.txs
    (all h.2).map (fun e => e.ty) = ["mailbox_default_ism_set", "mailbox_default_hook_set", "mailbox_required_hook_set",
      "mailbox_dispatch_id", "mailbox_dispatch", "mailbox_process_id", "mailbox_process"] ∧
    latest "mailbox_process_id" "message_id" (all h.2) = some (hexText (toyHash Ex.message.encode)) ∧
    latest "mailbox_dispatch" "destination" (all h.2) = some "1" ∧ getNonce h.1 = 1 := by decide +kernel

end MailboxEvents

section MerkleEvents

open MerkleHook

/-- The events of a merkle hook in terms of its calls. -/
theorem merkle_all {H : Bytes → Bytes} {s0 s : MerkleHook.State} {log : List (MerkleHook.Call × (Nat × List TextEvent))}
    (hc : Tx.Chain (logged (execute H) (Events.merkle H)) s0 log s) :
    ofType "hpl_hook_merkle::post_dispatch" (all log) =
      log.map (fun e => ⟨"hpl_hook_merkle::post_dispatch",
        [("message_id", hex (H e.1.message)), ("index", number e.2.1)]⟩) ∧
    ofType "hpl_hook_merkle::inserted_into_tree" (all log) =
      log.map (fun e => ⟨"hpl_hook_merkle::inserted_into_tree", [("index", number e.2.1)]⟩) := by
  refine logged_induct (fun _ log => ofType "hpl_hook_merkle::post_dispatch" (all log) =
      log.map (fun e => ⟨"hpl_hook_merkle::post_dispatch",
        [("message_id", hex (H e.1.message)), ("index", number e.2.1)]⟩) ∧
    ofType "hpl_hook_merkle::inserted_into_tree" (all log) =
      log.map (fun e => ⟨"hpl_hook_merkle::inserted_into_tree", [("index", number e.2.1)]⟩)) hc ⟨rfl, rfl⟩ ?_
  rintro s c s' r l ⟨i1, i2⟩ hx
  unfold execute at hx
  obtain ⟨_, _, hx⟩ := bind_eq_ok.1 hx
  obtain ⟨m, hm, _⟩ := bind_eq_ok.1 hx
  have he : m.encode = c.message := (Message.decode_eq_ok.1 hm).1
  have hid : messageId H c.message = H c.message := by
    unfold messageId
    rw [hm]
    show H m.encode = _
    rw [he]
  rw [all_snoc, ofType_append, ofType_append, i1, i2, List.map_append, List.map_append]
  refine ⟨?_, ?_⟩
  · congr 1
    unfold Events.merkle
    rw [hid]
    rfl
  · rfl

/-- **C79**, merkle hook. After any history the `post_dispatch` events of a merkle hook are numbered 0, 1, 2, … by their index
and show the leaves of the tree: number and root the hook answers are those of the tree over their ids, which is what a
validator needs to sign checkpoints and a relayer to build proofs. The `inserted_into_tree` events have the same numbers. -/
theorem C79_merkle_events {H : Bytes → Bytes} {zs : List Bytes} (hz : ZeroChain H zs) {valid : Addr → Bool} {mb : Addr}
    {k0 : MerkleHook.State} (hk : MerkleHook.instantiate zs valid mb = .ok k0)
    (txs : List (List (Tx.Act MerkleHook.Call))) :
    let s := (Tx.history (logged (execute H) (Events.merkle H)) k0 txs).1
    let evs := all (Tx.history (logged (execute H) (Events.merkle H)) k0 txs).2
    s = (Tx.history (execute H) k0 txs).1 ∧
    ∃ ids : List Bytes,
      (ofType "hpl_hook_merkle::post_dispatch" evs).map (attr "message_id") = ids.map (fun i => some (hexText i)) ∧
      (∀ k e, (ofType "hpl_hook_merkle::post_dispatch" evs)[k]? = some e → NumberAt "index" e k) ∧
      (∀ k e, (ofType "hpl_hook_merkle::inserted_into_tree" evs)[k]? = some e → NumberAt "index" e k) ∧
      (ofType "hpl_hook_merkle::inserted_into_tree" evs).length = ids.length ∧
      (getCount s).toNat = ids.length ∧ getRoot H zs s = treeRoot H 32 (leafOf ids) := by
  intro s evs
  obtain ⟨hs, hl⟩ := history_logged (execute H) (Events.merkle H) k0 txs
  obtain ⟨q1, q2, _, _, _, _, q7⟩ := C47_queries hz hk txs
  obtain ⟨a1, a2⟩ := merkle_all (Tx.history_chain (logged (execute H) (Events.merkle H)) k0 txs)
  rw [hs] at q1 q2
  rw [hl] at q1 q2 q7
  have hr : ∀ log : List (MerkleHook.Call × (Nat × List TextEvent)),
      recorded H (bare log) = log.map (fun e => H e.1.message) := by
    intro log
    unfold recorded bare
    rw [List.map_map]
    rfl
  rw [hr] at q1 q2
  have hi : ∀ (k : Nat) (e : MerkleHook.Call × (Nat × List TextEvent)), (Tx.history (logged (execute H) (Events.merkle H)) k0 txs).2[k]? = some e → e.2.1 = k := by
    intro k e he
    exact q7 k (e.1, e.2.1) (by unfold bare; rw [List.getElem?_map, he]; rfl)
  refine ⟨hs.symm, _, ?_, ?_, ?_, ?_, q1, q2⟩
  · show List.map _ (ofType _ (all _)) = _
    rw [a1, List.map_map, List.map_map]
    refine List.map_congr_left fun e _ => ?_
    show some (hex _) = some (hexText _)
    rw [hex_eq]
  · intro k e he
    change (ofType _ (all _))[k]? = some e at he
    rw [a1, List.getElem?_map, Option.map_eq_some_iff] at he
    obtain ⟨x, hx, rfl⟩ := he
    rw [hi k x hx]
    exact ⟨_, rfl, number_decimal _⟩
  · intro k e he
    change (ofType _ (all _))[k]? = some e at he
    rw [a2, List.getElem?_map, Option.map_eq_some_iff] at he
    obtain ⟨x, hx, rfl⟩ := he
    rw [hi k x hx]
    exact ⟨_, rfl, number_decimal _⟩
  · show (ofType _ (all _)).length = _
    rw [a2, List.length_map, List.length_map]

/-- Three messages are recorded, a fourth call is refused. -/
example :
    let c : MerkleHook.Call := ⟨fun _ => .ok (toyHash (zeros 77)), [], zeros 77⟩
    let bad : MerkleHook.Call := ⟨fun _ => .ok [], [], zeros 77⟩
    let h := Tx.history (logged (MerkleHook.execute toyHash) (Events.merkle toyHash)) ⟨"mb", Merkle.default toyZeros⟩
      [[.call c []], [.call bad []], [.call c [], .call c []]]
    (ofType "hpl_hook_merkle::post_dispatch" (all h.2)).map (attr "index") = [some "0", some "1", some "2"] ∧
    getCount h.1 = 3 := by decide +kernel

end MerkleEvents

section VaEvents

variable {H : Bytes → Bytes} {R : Recover}

/-- The announcement events of one validator. -/
def Spec.announcedBy (v : Bytes) (evs : List TextEvent) : List TextEvent :=
  (ofType "validator-announcement" evs).filter (fun e => attr "validator" e = some (hexText v))

/-- The call of the contract behind an announcement. -/
def vaCallOf (c : Announce) : Va.Call := ⟨c.sender, c.validator, Proto.utf8 c.location, c.signature⟩

theorem announce_all {s0 s : Va.State} {log : List (Announce × (Unit × List TextEvent))}
    (hc : Tx.Chain (logged (Events.announce H R) Events.announcement) s0 log s) :
    Tx.Chain (Va.announce H R) s0 (log.map (fun e => (vaCallOf e.1, ()))) s ∧
    ofType "validator-announcement" (all log) = log.flatMap (fun e => Events.announcement s0 e.1 ()) := by
  refine logged_induct (fun s log => Tx.Chain (Va.announce H R) s0 (log.map (fun e => (vaCallOf e.1, ()))) s ∧
    ofType "validator-announcement" (all log) = log.flatMap (fun e => Events.announcement s0 e.1 ())) hc ⟨rfl, rfl⟩ ?_
  rintro s c s' r l ⟨i1, i2⟩ hx
  refine ⟨?_, ?_⟩
  · rw [List.map_append]
    exact Tx.Chain.snoc.2 ⟨s, i1, hx⟩
  · rw [all_snoc, ofType_append, i2, List.flatMap_append]
    congr 1

/-- **C79**, validator announce. After any history the locations the contract answers for a validator are, in order, those in
the `validator-announcement` events with the validator in hexadecimal; and the validators it lists are those with an event. -/
theorem C79_announcement_events (hH : ∀ x, (H x).length = 32) {C : Codec} {valid : Addr → Bool} {mailbox : Addr}
    {d : UInt32} {s0 : Va.State} (h0 : Va.instantiate C valid mailbox (.ok d) = .ok s0)
    (txs : List (List (Tx.Act Announce))) :
    let s := (Tx.history (logged (Events.announce H R) Events.announcement) s0 txs).1
    let evs := all (Tx.history (logged (Events.announce H R) Events.announcement) s0 txs).2
    (∀ vs, Va.getAnnounce s vs = vs.map (fun v =>
      (v, (announcedBy v evs).filterMap (fun e => (attr "storage-location" e).map Proto.utf8)))) ∧
    (∀ v, v ∈ Va.getValidators s ↔ announcedBy v evs ≠ []) := by
  intro s evs
  obtain ⟨a1, a2⟩ := announce_all (Tx.history_chain (logged (Events.announce H R) Events.announcement) s0 txs)
  obtain ⟨_, _, _, _, hs0⟩ := va_instantiate_ok h0
  obtain ⟨_, _, i3, i4, _⟩ := va_chain hH a1
  have hb : ∀ v, announcedBy v evs =
      ((Tx.history (logged (Events.announce H R) Events.announcement) s0 txs).2.filter (fun e => e.1.validator = v)).flatMap
        (fun e => Events.announcement s e.1 ()) := by
    intro v
    show List.filter _ (ofType _ (all _)) = _
    rw [a2]
    generalize (Tx.history (logged (Events.announce H R) Events.announcement) s0 txs).2 = log
    induction log with
    | nil => rfl
    | cons e t ih =>
      rw [List.flatMap_cons, List.filter_append, ih, List.filter_cons]
      have he : (attr "validator" ⟨"validator-announcement", [("sender", e.1.sender), ("validator", hex e.1.validator),
          ("storage-location", e.1.location)]⟩ = some (hexText v)) ↔ e.1.validator = v := by
        show some (hex _) = _ ↔ _
        rw [hex_eq]
        constructor
        · intro h; exact hexText_inj (Option.some.inj h)
        · rintro rfl; rfl
      by_cases hv : e.1.validator = v
      · subst hv
        simp only [Events.announcement, List.filter_cons, decide_eq_true (he.2 rfl), List.filter_nil, if_true, decide_true,
          List.flatMap_cons]
      · simp only [Events.announcement, List.filter_cons, decide_eq_false (fun h => hv (he.1 h)), decide_eq_false hv,
          List.filter_nil, List.nil_append, Bool.false_eq_true, if_false]
  have hann : ∀ log : List (Announce × (Unit × List TextEvent)),
      announcements (log.map (fun e => (vaCallOf e.1, ()))) = log.map (fun e => (e.1.validator, Proto.utf8 e.1.location)) := by
    intro log
    unfold announcements
    rw [List.map_map]
    rfl
  rw [hann] at i3 i4
  refine ⟨?_, ?_⟩
  · intro vs
    unfold Va.getAnnounce
    refine List.map_congr_left fun v _ => ?_
    congr 1
    rw [i3 v, hb v]
    rw [hs0]
    show [] ++ _ = _
    rw [List.nil_append, ← hs0]
    generalize (Tx.history (logged (Events.announce H R) Events.announcement) s0 txs).2 = log
    induction log with
    | nil => rfl
    | cons e t ih =>
      simp only [List.map_cons, List.filter_cons]
      by_cases hv : e.1.validator = v
      · simp only [hv, decide_true, if_true, List.map_cons, List.flatMap_cons, List.filterMap_append]
        rw [ih]
        simp [Events.announcement, attr, List.lookup]
      · simp only [decide_eq_false hv, Bool.false_eq_true, if_false]
        exact ih
  · intro v
    unfold Va.getValidators
    rw [← OMap.has_iff_mem_keys, i4 v, hb v]
    have hno : ¬ s0.validators.has v = true := by rw [hs0]; simp [OMap.has, OMap.empty, OMap.get, findKey]
    constructor
    · rintro (h | ⟨l, hl⟩)
      · exact absurd h hno
      · obtain ⟨e, he, hx⟩ := List.mem_map.1 hl
        simp only [Prod.mk.injEq] at hx
        intro h0
        rw [List.flatMap_eq_nil_iff] at h0
        have := h0 e (List.mem_filter.2 ⟨he, decide_eq_true hx.1⟩)
        cases this
    · intro h
      right
      obtain ⟨x, hx⟩ := List.exists_mem_of_ne_nil _ h
      obtain ⟨e, he, _⟩ := List.mem_flatMap.1 hx
      obtain ⟨he, hv⟩ := List.mem_filter.1 he
      exact ⟨_, List.mem_map.2 ⟨e, he, by rw [of_decide_eq_true hv]⟩⟩

/-- Two locations of one validator, one of another; a repetition is refused. -/
example :
    let c (b : UInt8) (t : String) : Announce := ⟨"x", Ex.vaValidator b, t, (Ex.vaCall b (Proto.utf8 t)).signature⟩
    let h := Tx.history (logged (Events.announce toyHash Ex.recover) Events.announcement) Ex.vaS0
      [[.call (c 1 "s3://a") []], [.call (c 1 "s3://a") []], [.call (c 1 "s3://b") []], [.call (c 2 "s3://a") []]]
    (announcedBy (Ex.vaValidator 1) (all h.2)).map (attr "storage-location") = [some "s3://a", some "s3://b"] ∧
    (announcedBy (Ex.vaValidator 2) (all h.2)).map (attr "storage-location") = [some "s3://a"] := by decide +kernel

end VaEvents

end Hpl
