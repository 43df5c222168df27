import Verif.Lemmas.Governance

/-! # Owners stay in control (C75) -/

namespace Hpl

open Spec

/-- **C75.** For every contract of the repository that has an owner, after any history of calls by anybody: there is an
owner; a message that changes settings is accepted exactly if it comes from this owner and its content is acceptable;
ownership changes only through calls about ownership, by the owner or the nominee; and whatever others do, the owner can hand
the contract over to any valid account. -/
theorem C75_owners_in_control (H : Bytes → Bytes) (C : Codec) (lower : Char → Bool) (self : Addr) :
    ∀ G ∈ governed H C lower self, InControl G := by
  intro G hG
  apply Stepwise.inControl
  simp only [governed, List.mem_cons, List.not_mem_nil, or_false] at hG
  rcases hG with rfl | rfl | rfl | rfl | rfl | rfl | rfl | rfl | rfl | rfl | rfl | rfl | rfl | rfl | rfl
  · exact stepwise_mailbox H C lower
  · apply stepwise_answering
    · rintro s ⟨v, o, f, h⟩
      obtain ⟨_, _, h⟩ := bind_eq_ok.1 h
      cases h
      exact ⟨o, rfl⟩
    · intro e own s a fu m f hf
      cases m <;> cases hf <;>
        settles [FeeHook.part]
  · apply stepwise_answering
    · rintro s ⟨v, o, f, h⟩
      obtain ⟨_, _, h⟩ := bind_eq_ok.1 h
      cases h
      exact ⟨o, rfl⟩
    · intro e own s a fu m f hf
      cases m <;> cases hf
      settles [PausableHook.part]
  · apply stepwise_answering
    · rintro s ⟨v, o, f, h⟩
      obtain ⟨_, _, h⟩ := bind_eq_ok.1 h
      obtain ⟨_, _, h⟩ := bind_eq_ok.1 h
      cases h
      exact ⟨o, rfl⟩
    · intro e own s a fu m f hf
      cases m <;> cases hf
      settles [AggregateHook.part]
  · apply stepwise_answering
    · rintro s ⟨v, o, h⟩
      obtain ⟨_, _, h⟩ := bind_eq_ok.1 h
      cases h
      exact ⟨o, rfl⟩
    · intro e own s a fu m f hf
      cases m <;> cases hf
      settles [RoutingHook.part]
  · apply stepwise_answering
    · rintro s ⟨v, o, h⟩
      obtain ⟨_, _, h⟩ := bind_eq_ok.1 h
      cases h
      exact ⟨o, rfl⟩
    · intro e own s a fu m f hf
      cases m <;> cases hf <;>
        settles [FallbackHook.part]
  · apply stepwise_answering
    · rintro s ⟨v, o, h⟩
      obtain ⟨_, _, h⟩ := bind_eq_ok.1 h
      cases h
      exact ⟨o, rfl⟩
    · intro e own s a fu m f hf
      cases m <;> cases hf <;>
        settles [CustomHook.part]
  · apply stepwise_answering
    · rintro s ⟨v, b, hrp, o, t, ben, g, h⟩
      obtain ⟨_, _, h⟩ := bind_eq_ok.1 h
      obtain ⟨_, _, h⟩ := bind_eq_ok.1 h
      obtain ⟨_, _, h⟩ := bind_eq_ok.1 h
      obtain ⟨_, _, h⟩ := bind_eq_ok.1 h
      cases h
      exact ⟨o, rfl⟩
    · intro e own s a fu m f hf
      cases m <;> cases hf <;>
        settles [Igp.part]
  · apply stepwise_answering
    · rintro s ⟨v, o, h⟩
      obtain ⟨_, _, h⟩ := bind_eq_ok.1 h
      cases h
      exact ⟨o, rfl⟩
    · intro e own s a fu m f hf
      cases m <;> cases hf <;>
        settles [Oracle.part]
  iterate 2
    · apply stepwise_answering
      · rintro s ⟨v, vt, hrp, o, mb, m, t, h⟩
        cases m with
        | collateral =>
          obtain ⟨_, _, h⟩ := bind_eq_ok.1 h
          cases t with
          | none => cases h
          | some t =>
            obtain ⟨_, _, h⟩ := bind_eq_ok.1 h
            obtain ⟨_, _, h⟩ := bind_eq_ok.1 h
            cases h
            exact ⟨o, rfl⟩
        | bridged =>
          obtain ⟨_, h', h⟩ := bind_eq_ok.1 h
          obtain ⟨_, _, h'⟩ := bind_eq_ok.1 h'
          obtain ⟨_, _, h'⟩ := bind_eq_ok.1 h'
          cases h'
          cases t with
          | none => cases h
          | some t =>
            cases h
            exact ⟨o, rfl⟩
      · intro e own s a fu m f hf
        cases m <;> cases hf <;>
          settles [Warp.part]
  · apply stepwise_silent
    · rintro s ⟨v, o, l, t, h⟩
      obtain ⟨_, _, h⟩ := bind_eq_ok.1 h
      obtain ⟨_, _, h⟩ := bind_eq_ok.1 h
      cases h
      exact ⟨o, rfl⟩
    · intro v own s a m f hf
      cases m
      cases hf
      settles [AggregateIsm.handle]
  · apply stepwise_silent
    · rintro s ⟨o, rfl⟩
      exact ⟨o, rfl⟩
    · intro v own s a m f hf
      cases m <;> cases hf <;>
        settles [Multisig.handle]
      simp only [Bool.and_eq_true, decide_eq_true_eq]
      constructor
      · rintro ⟨h1, h2, h3, h4⟩
        exact ⟨h1, h4, h3, h2⟩
      · rintro ⟨h1, h4, h3, h2⟩
        exact ⟨h1, h2, h3, h4⟩
  · apply stepwise_silent
    · rintro s ⟨v, o, l, h⟩
      obtain ⟨_, _, h⟩ := bind_eq_ok.1 h
      obtain ⟨_, _, h⟩ := bind_eq_ok.1 h
      cases h
      exact ⟨o, rfl⟩
    · intro v own s a m f hf
      cases m <;> cases hf <;>
      settles [RoutingIsm.handle]
  · apply stepwise_silent
    · rintro s ⟨o, p, rfl⟩
      exact ⟨o, rfl⟩
    · intro v own s a m f hf
      cases hf
      exact pause_isOk' 

/-- One of them is the signature module. Deployed by `a`, who nominates `b` and enrolls a validator; `e` in vain tries to
accept, to nominate and to enroll. Then `a` withdraws the nomination, `b` in vain accepts, `a` nominates `n`, `e` again tries
everything, `n` accepts, and from now on `n` enrolls and `a` does not. -/
private def hist : List (OwnedCall Multisig.Msg) :=
  [⟨fun _ => true, "a", .inl (.initTransfer "b")⟩, ⟨fun _ => true, "a", .inr (.setValidators 5 1 [List.replicate 20 7])⟩,
   ⟨fun _ => true, "e", .inl .claim⟩, ⟨fun _ => true, "e", .inl (.initTransfer "e")⟩,
   ⟨fun _ => true, "e", .inr (.setValidators 5 1 [List.replicate 20 8])⟩]

private def handOver : List (OwnedCall Multisig.Msg) :=
  ⟨fun _ => true, "a", .inl .revoke⟩ :: [⟨fun _ => true, "b", .inl .claim⟩] ++
  ⟨fun _ => true, "a", .inl (.initTransfer "n")⟩ ::
    [⟨fun _ => true, "e", .inl .claim⟩, ⟨fun _ => true, "e", .inl .revoke⟩, ⟨fun _ => true, "e", .inr (.unsetDomain 5)⟩] ++
  [⟨fun _ => true, "n", .inl .claim⟩]

private def sig : Governed :=
  silent (fun s => ∃ o, s = (Ownable.init o, Multisig.init)) Multisig.step fineMultisig

example (H : Bytes → Bytes) (C : Codec) (lower : Char → Bool) (self : Addr) : sig ∈ governed H C lower self := by
  simp only [sig, governed, List.mem_cons, true_or, or_true]

example : (run Multisig.step (Ownable.init "a", Multisig.init) hist).1 = ⟨some "a", some "b"⟩ ∧
    (run Multisig.step (Ownable.init "a", Multisig.init) hist).2.validators.get 5 = some [List.replicate 20 7] ∧
    (run Multisig.step (Ownable.init "a", Multisig.init) (hist ++ handOver)).1 = ⟨some "n", none⟩ := by
  decide +kernel

/-- After that `n` enrolls validators and `a` does not; a threshold above their number is refused for `n` too. -/
private def now := run Multisig.step (Ownable.init "a", Multisig.init) (hist ++ handOver)

private def accepted (c : OwnedCall Multisig.Msg) : Bool := (Multisig.step now c).toOption.isSome

example : accepted ⟨fun _ => true, "n", .inr (.setValidators 5 1 [List.replicate 20 8])⟩ = true ∧
    accepted ⟨fun _ => true, "a", .inr (.setValidators 5 1 [List.replicate 20 8])⟩ = false ∧
    accepted ⟨fun _ => true, "n", .inr (.setValidators 5 2 [List.replicate 20 8])⟩ = false := by
  decide +kernel

end Hpl
