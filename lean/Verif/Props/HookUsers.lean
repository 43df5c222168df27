import Verif.Lemmas.HookUsers
import Verif.Examples.HookSystem

/-! # People who own nothing cannot stop dispatching or make it dearer: C91 -/

namespace Hpl

open HookSystem Spec

variable {W : World} {P : Addr → Prop}

/-- **C91**: whatever people do who own nothing, mailbox, hooks and gas oracles keep their settings and owners; only
messages are added to merkle trees and deliveries to the mailbox. -/
theorem C91_settings_stay {s s' : Sys} {l : List (Addr × Item)} (h : Runs W P s l s') (hl : ∀ i ∈ l, P i.1)
    (hP : ∀ x, P x → OwnsNothing s x) :
    SameSettings s.hooks s'.hooks ∧ s'.box.config = s.box.config ∧ s'.box.own = s.box.own ∧
    ∀ id, s.box.deliveries.has id = true → s'.box.deliveries.has id = true := by
  have hu := runs_untouched h hP (fun i hi => .inr (hl i hi))
  exact ⟨hu.hooks, hu.config, hu.own, hu.delivered⟩

theorem messages_twins {v v' : UInt8} {n n' o o' d : UInt32} {x y z : Bytes} (hx : x.length = 32)
    (hy : y.length = 32) : Twins (Message.encode ⟨v, n, o, x, d, y, z⟩) (Message.encode ⟨v', n', o', x, d, y, z⟩) :=
  ⟨⟨v, n, o, x, d, y, z⟩, ⟨v', n', o', x, d, y, z⟩, Message.decode_encode _ hx hy, Message.decode_encode _ hx hy,
    rfl, rfl⟩

/-- **C91**: and every dispatch is quoted what it was quoted before, including failures. -/
theorem C91_quotes_stay {s s' : Sys} {l : List (Addr × Item)} (h : Runs W P s l s') (hl : ∀ i ∈ l, P i.1)
    (hP : ∀ x, P x → OwnsNothing s x) (sender : Addr) {q : DispatchMsg} (hto : q.recipient.length = 32) :
    quoteDispatch W s' sender q = quoteDispatch W s sender q := by
  have hu := runs_untouched h hP (fun i hi => .inr (hl i hi))
  unfold HookSystem.quoteDispatch Mailbox.quoteDispatch
  rw [hu.config]
  refine congrArg _ (funext fun _ => ?_)
  unfold Mailbox.toMsg
  cases hf : bech32ToH256 W.C sender with
  | error e => simp only [error_bind]
  | ok from32 =>
    have ht : ∀ a md, quoteOf s'.hooks W.depth a md (Message.encode
          ⟨Mailbox.version, s'.box.nonce, s.box.config.localDomain, from32, q.dest, q.recipient, q.body⟩) =
        quoteOf s.hooks W.depth a md (Message.encode
          ⟨Mailbox.version, s.box.nonce, s.box.config.localDomain, from32, q.dest, q.recipient, q.body⟩) := by
      intro a md
      rw [hu.hooks.quoteOf]
      exact Twins.quoteOf (messages_twins (Mailbox.length_bech32ToH256 hf) hto) _ _ _ _
    simp only [ok_bind, pure_eq_ok, boxEnv, ht]

/-- **C91**: an account that does nothing loses nothing. -/
theorem C91_idle_account {s s' : Sys} {l : List (Addr × Item)} (h : Runs W P s l s') (hl : ∀ i ∈ l, P i.1) {a : Addr}
    (hc : s.hooks a = none) (hb : a ≠ W.mb) (ha : ¬ P a) (d : String) : s.bank a d ≤ s'.bank a d :=
  runs_idle h hc hb ha (fun i hi e => ha (e ▸ hl i hi)) d

/-- **C91**: a request whose hooks are in order, quoted `total`, can be dispatched for `total` after anything that people
did who own nothing, as long as nonces and room in the merkle trees last and the sender has the coins, with the effects
of C65. -/
theorem C91_dispatch_stays_possible {s s' : Sys} {l : List (Addr × Item)} (h : Runs W P s l s') (hl : ∀ i ∈ l, P i.1)
    (hP : ∀ x, P x → OwnsNothing s x)
    {sender : Addr} {q : DispatchMsg} {from32 : Bytes} {required dflt : Addr} {u v : List Visit} {total : List Coin}
    (hfrom : bech32ToH256 W.C sender = .ok from32) (hto : q.recipient.length = 32)
    (hreq : s.box.config.requiredHook = some required) (hdef : s.box.config.defaultHook = some dflt)
    (hown : ∀ a, q.hook = some a → W.valid a = true)
    (hu : Settles W s.hooks (q.metadata.getD []) (requestMessage s.box from32 q) required u)
    (hv : Settles W s.hooks (q.metadata.getD []) (requestMessage s.box from32 q) (q.hook.getD dflt) v)
    (hq : quoteDispatch W s sender q = .ok total)
    (hnonce : s'.box.nonce.toNat + 1 < 2 ^ 32) (hroom : Room s'.hooks (u ++ v).length)
    (hbal : (s.hooks sender = none ∧ sender ≠ W.mb ∧ ¬ P sender ∧ ∀ d, amountOf d total ≤ s.bank sender d) ∨
      ∀ d, amountOf d total ≤ s'.bank sender d) :
    ∃ s'' n, (∀ gas, n ≤ gas → HookSystem.dispatch W gas s' sender total q = .ok s'') ∧
      (∀ x d, s''.bank x d + (if x = sender then amountOf d total else 0) = s'.bank x d + keptAt x d (u ++ v)) ∧
      (∀ d, amountOf d total = keptBy d (u ++ v)) ∧
      GrownBy s'.hooks s''.hooks (u ++ v) ∧
      s''.box = { s'.box with
        nonce := s'.box.nonce + 1, latest := some (W.H (requestMessage s'.box from32 q)) } := by
  have ht := runs_untouched h hP (fun i hi => .inr (hl i hi))
  have htw : Twins (requestMessage s.box from32 q) (requestMessage s'.box from32 q) :=
    messages_twins (Mailbox.length_bech32ToH256 hfrom) hto
  have hval : W.valid sender = true := by
    unfold HookSystem.quoteDispatch Mailbox.quoteDispatch at hq
    obtain ⟨_, h1, _⟩ := bind_eq_ok.1 hq
    exact ensure_eq_ok.1 h1
  have hq' := (C91_quotes_stay h hl hP sender hto).trans hq
  obtain ⟨e, g⟩ := (C65_quote_pays_tree hfrom hval hto hnonce (by rw [ht.config]; exact hreq)
    (by rw [ht.config]; exact hdef) hown (ht.hooks.settles (htw.settles hu)) (ht.hooks.settles (htw.settles hv))).2 _ hq'
  obtain ⟨s'', n, g1, g2, g3, g4⟩ := g (by
    intro d
    rcases hbal with ⟨b1, b2, b3, b4⟩ | b
    · exact Nat.le_trans (b4 d) (C91_idle_account h hl b1 b2 b3 d)
    · exact b d) hroom
  exact ⟨s'', n, g1, g2, e, g3, g4⟩

/-- **C91**: a delivery that the mailbox would accept, it accepts after anything that people did who own nothing, with the
same answer, unless the message has been delivered since. -/
theorem C91_process_stays_possible {s s' : Sys} {l : List (Addr × Item)} (h : Runs W P s l s') (hl : ∀ i ∈ l, P i.1)
    (hP : ∀ x, P x → OwnsNothing s x) {env : Mailbox.Env} {relayer : Addr} {funds : List Coin} {md message : Bytes}
    {b : Mailbox.State} {r : Response}
    (ho : Mailbox.execute W.H W.C s.box ⟨env, relayer, funds, .process md message⟩ = .ok (b, r)) :
    s'.box.deliveries.has (W.H message) = true ∨
      ∃ b', Mailbox.execute W.H W.C s'.box ⟨env, relayer, funds, .process md message⟩ = .ok (b', r) ∧
        b'.deliveries.has (W.H message) = true := by
  have ht := runs_untouched h hP (fun i hi => .inr (hl i hi))
  by_cases hd : s'.box.deliveries.has (W.H message) = true
  · exact .inl hd
  · refine .inr ?_
    have h2 : Mailbox.process _ _ _ _ _ _ _ = _ := ho
    show ∃ b', Mailbox.process W.H W.C env s'.box relayer md message = _ ∧ _
    simp only [Mailbox.process] at h2 ⊢
    rw [ht.config]
    obtain ⟨m, k1, h2⟩ := bind_eq_ok.1 h2
    obtain ⟨_, k2, h2⟩ := bind_eq_ok.1 h2
    obtain ⟨_, k3, h2⟩ := bind_eq_ok.1 h2
    obtain ⟨_, k4, h2⟩ := bind_eq_ok.1 h2
    obtain ⟨_, k5, h2⟩ := bind_eq_ok.1 h2
    obtain ⟨_, k6, h2⟩ := bind_eq_ok.1 h2
    obtain ⟨_, k7, h2⟩ := bind_eq_ok.1 h2
    obtain ⟨_, k8, h2⟩ := bind_eq_ok.1 h2
    obtain ⟨_, k9, h2⟩ := bind_eq_ok.1 h2
    cases h2
    have hid : m.id W.H = W.H message := by
      unfold Message.id
      rw [(Message.decode_eq_ok.1 k1).1]
    rw [k1, ok_bind, k2, ok_bind, k3, ok_bind, k4, ok_bind, k5, ok_bind, k6, ok_bind, hid]
    simp only [Bool.not_eq_true] at hd
    rw [hd]
    refine ⟨{ s'.box with deliveries := s'.box.deliveries.insert (W.H message) ⟨relayer, env.height⟩ }, ?_, ?_⟩
    · have hn : ensure (!false) "message already delivered" = .ok () := rfl
      rw [hn, ok_bind, k8, ok_bind, k9, ok_bind]
      simp only [pure_eq_ok, ht.config]
    · simp [OMap.has_insert]

/-! ### A concrete history -/

/-- Carries out items; contracts outside of the model do what `script` says. -/
def play (W : World) (script : Addr → List (Addr × Item)) : Nat → Sys → List (Addr × Item) → Res Sys
  | _, s, [] => .ok s
  | 0, _, _ :: _ => .error (.err "out of gas")
  | gas + 1, s, (src, i) :: t =>
    match i with
    | .msg o =>
      match stepMsg W s src o with
      | .ok x => play W script gas x.1 (x.2.map (fun m => (m.1, .msg m.2)) ++ t)
      | .error e =>
        match o with
        | .execute dst _ funds =>
          if (s.hooks dst).isNone ∧ dst ≠ W.mb then
            match pay s.bank src dst funds with
            | .ok k => play W script gas { s with bank := k } (script dst ++ t)
            | .error e => .error e
          else .error e
        | _ => .error e
    | .box funds m ri ve =>
      match callBox W s ri ve src funds m with
      | .ok x => play W script gas x.1 (x.2.map (fun m => (m.1, .msg m.2)) ++ t)
      | .error e => .error e
    | .hook self funds m bal =>
      match callContract W s bal src self funds m with
      | .ok x => play W script gas x.1 (x.2.map (fun m => (m.1, .msg m.2)) ++ t)
      | .error e => .error e

theorem play_runs {script : Addr → List (Addr × Item)} (hs : ∀ a, ∀ i ∈ script a, i.1 = a ∧ P a) {gas : Nat}
    {s s' : Sys} {l : List (Addr × Item)} (h : play W script gas s l = .ok s') : Runs W P s l s' := by
  induction gas generalizing s l with
  | zero =>
    cases l with
    | nil => cases h; exact .done _
    | cons i t => cases h
  | succ n ih =>
    cases l with
    | nil => cases h; exact .done _
    | cons i t =>
      obtain ⟨src, i⟩ := i
      cases i with
      | msg o =>
        simp only [play] at h
        split at h
        · rename_i x hx
          exact .msg hx (ih h)
        · split at h
          · split at h
            · rename_i hn
              split at h
              · rename_i k hk
                exact .foreign _ (Option.isNone_iff_eq_none.1 hn.1) hn.2 hk (hs _) (ih h)
              · cases h
            · cases h
          · cases h
      | box funds m ri ve =>
        simp only [play] at h
        split at h
        · rename_i x hx
          exact .box hx (ih h)
        · cases h
      | hook self funds m bal =>
        simp only [play] at h
        split at h
        · rename_i x hx
          exact .hook hx (ih h)
        · cases h

namespace Ex

/-- Bob's account. -/
def bob : Addr := "osmo1qyqszqgpqyqszqgpqyqszqgpqyqszqgp6gjwmw"

/-- Bob and the contract of mallory have coins, too. -/
def busySys : Sys := { hookSys with bank := fun a _ => if a = alice ∨ a = bob ∨ a = "mallory" then 1000 else 0 }

/-- Bob's request names mallory's contract as hook. -/
def bobsRequest : DispatchMsg := { request with hook := some "mallory" }

/-- Bob's message. -/
def bobsMessage : Message := { message with sender := zeros 12 ++ List.replicate 20 1 }

/-- Mallory's contract, called in the middle of bob's dispatch, inserts bob's message into the merkle tree once more and
sends coins to the aggregate hook. -/
def malloryDoes (a : Addr) : List (Addr × Item) :=
  if a = "mallory" then
    [("mallory", .msg (.execute "tree" (.postDispatch [] bobsMessage.encode) [])),
     ("mallory", .msg (.bankSend "hook" [⟨"uatom", 5⟩]))]
  else []

/-- Bob dispatches, has a message processed whose recipient is nobody's, and pays for gas. -/
def bobDoes : List (Addr × Item) :=
  [(bob, .box [⟨"uatom", 1⟩] (.dispatch bobsRequest) (fun _ => .ok none) (fun _ _ _ => .ok false)),
   (bob, .box [] (.process [] message.encode) (fun _ => .ok none) (fun _ _ _ => .ok true)),
   (bob, .hook "igp" [⟨"uosmo", 700⟩] (.igp (.inr (.payForGas [] 1 100 bob))) [])]

/-- Nobody else but bob and mallory. -/
def Others (a : Addr) : Prop := a = bob ∨ a = "mallory"

theorem bobDoes_by : ∀ i ∈ bobDoes, Others i.1 := by
  intro i hi
  simp only [bobDoes, List.mem_cons, List.not_mem_nil, or_false] at hi
  rcases hi with rfl | rfl | rfl <;> exact .inl rfl

theorem others_own_nothing : ∀ x, Others x → OwnsNothing busySys x := by
  have hne : ∀ x, Others x → alice ≠ x := by
    rintro x (rfl | rfl) <;> decide
  intro x hx
  have hn := hne x hx
  refine ⟨⟨fun e => hn (Option.some.inj e), by simp [busySys, hookSys, s1, Ownable.init]⟩, ?_⟩
  intro a c o hc ho
  simp only [busySys, hookSys, hookContracts] at hc
  split_ifs at hc <;> cases hc <;> cases ho <;>
    exact ⟨fun e => hn (Option.some.inj e), by simp [Ownable.init]⟩

theorem others_run : ∃ s', Runs hookWorld Others busySys bobDoes s' ∧
    (s'.box.nonce = 1 ∧ s'.bank "mallory" "uatom" = 996 ∧ s'.bank "hook" "uatom" = 5 ∧ s'.bank "igp" "uosmo" = 600 ∧
      s'.bank alice "uatom" = 1000 ∧
      ((s'.hooks "tree").map (fun c => match c with
        | .merkle t => (t.mailbox, t.tree.branch.length, t.tree.count)
        | _ => ("", 0, 0))) = some ("mailbox", 32, 2)) := by
  have h : ((play hookWorld malloryDoes 30 busySys bobDoes).toOption.map (fun s' =>
      decide (s'.box.nonce = 1 ∧ s'.bank "mallory" "uatom" = 996 ∧ s'.bank "hook" "uatom" = 5 ∧
        s'.bank "igp" "uosmo" = 600 ∧ s'.bank alice "uatom" = 1000 ∧
        ((s'.hooks "tree").map (fun c => match c with
          | .merkle t => (t.mailbox, t.tree.branch.length, t.tree.count)
          | _ => ("", 0, 0))) = some ("mailbox", 32, 2)))) = some true := by decide +kernel
  cases hp : play hookWorld malloryDoes 30 busySys bobDoes with
  | error e => rw [hp] at h; cases h
  | ok s' =>
    rw [hp] at h
    refine ⟨s', play_runs (script := malloryDoes) ?_ hp, ?_⟩
    · intro a i hi
      unfold malloryDoes at hi
      split at hi
      · rename_i e
        subst e
        simp only [List.mem_cons, List.not_mem_nil, or_false] at hi
        rcases hi with rfl | rfl <;> exact ⟨rfl, .inr rfl⟩
      · cases hi
    · simp only [Except.toOption, Option.map_some, Option.some.injEq] at h
      exact of_decide_eq_true h

end Ex

/-- After all of that the settings are what they were, alice is quoted 14 uatom and 600 uosmo as before, and the dispatch
succeeds for that. -/
example : ∃ s', Runs Ex.hookWorld Ex.Others Ex.busySys Ex.bobDoes s' ∧ SameSettings Ex.busySys.hooks s'.hooks ∧
    quoteDispatch Ex.hookWorld s' Ex.alice Ex.request = .ok [⟨"uatom", 14⟩, ⟨"uosmo", 600⟩] ∧
    ∃ s'' n, (∀ gas, n ≤ gas → HookSystem.dispatch Ex.hookWorld gas s' Ex.alice
      [⟨"uatom", 14⟩, ⟨"uosmo", 600⟩] Ex.request = .ok s'') ∧ s''.box.nonce = 2 := by
  obtain ⟨s', hr, h1, h2, h3, h4, h5, h6⟩ := Ex.others_run
  have hq : quoteDispatch Ex.hookWorld Ex.busySys Ex.alice Ex.request = .ok [⟨"uatom", 14⟩, ⟨"uosmo", 600⟩] :=
    CustomHook.toOption_eq_some.1 (by decide +kernel)
  obtain ⟨hs, hcfg, _, _⟩ := C91_settings_stay hr Ex.bobDoes_by Ex.others_own_nothing
  refine ⟨s', hr, hs, (C91_quotes_stay hr Ex.bobDoes_by Ex.others_own_nothing _ (by decide)).trans hq, ?_⟩
  obtain ⟨s'', n, g1, _, _, _, g5⟩ := C91_dispatch_stays_possible (sender := Ex.alice) (q := Ex.request)
    (from32 := Ex.request.recipient) (required := "req") (dflt := "hook") hr Ex.bobDoes_by Ex.others_own_nothing
    (CustomHook.toOption_eq_some.1 (by decide +kernel)) (by decide) rfl rfl (by intro a h; cases h) Ex.hookSys_req
    (Ex.hookSys_hook Ex.osmoEnc) hq (by rw [h1]; decide) (by
      intro a y hy
      have ht : Ex.busySys.hooks a = some (.merkle ⟨"mailbox", Merkle.default (List.replicate 32 [])⟩) ∧ a = "tree" := by
        rcases hs.alike a with e | ⟨u, v, e, _⟩
        · rw [hy] at e
          simp only [Ex.busySys, Ex.hookSys, Ex.hookContracts] at e ⊢
          split_ifs at e ⊢ <;> first | (cases e; done) | skip
          rename_i ha
          exact ⟨rfl, ha⟩
        · simp only [Ex.busySys, Ex.hookSys, Ex.hookContracts] at e ⊢
          split_ifs at e ⊢ <;> first | (cases e; done) | skip
          rename_i ha
          exact ⟨rfl, ha⟩
      rw [ht.2] at hy
      rw [hy] at h6
      simp only [Option.map_some, Option.some.injEq, Prod.mk.injEq] at h6
      refine ⟨h6.2.1, ?_⟩
      rw [h6.2.2]
      decide)
    (.inl ⟨by decide +kernel, by decide, by rintro (h | h) <;> revert h <;> decide, by
      intro d
      simp only [Ex.busySys, true_or, if_true]
      rw [amountOf_cons, amountOf_one]
      split_ifs <;> simp_all⟩)
  exact ⟨s'', n, g1, by rw [g5]; simp only [h1]; rfl⟩

/-- A message to the mailbox can be processed after that, too. -/
example : ∃ s', Runs Ex.hookWorld Ex.Others Ex.busySys Ex.bobDoes s' ∧
    (s'.box.deliveries.has (toyHash Ex.bobsMessage.encode) = true ∨
      ∃ b' r, Mailbox.execute toyHash Bech.codec s'.box (Ex.call [] (.process [] Ex.bobsMessage.encode)) = .ok (b', r)) := by
  obtain ⟨s', hr, _⟩ := Ex.others_run
  refine ⟨s', hr, ?_⟩
  have h : (Mailbox.execute toyHash Bech.codec Ex.s1
    (Ex.call [] (.process [] Ex.bobsMessage.encode))).toOption.isSome = true := by decide +kernel
  cases ho : Mailbox.execute toyHash Bech.codec Ex.s1 (Ex.call [] (.process [] Ex.bobsMessage.encode)) with
  | error e => rw [ho] at h; cases h
  | ok y =>
    rcases C91_process_stays_possible hr Ex.bobDoes_by Ex.others_own_nothing ho with h | ⟨b', h, _⟩
    · exact .inl h
    · exact .inr ⟨b', _, h⟩

end Hpl
