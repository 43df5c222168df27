import Verif.Spec.Warp
import Verif.Lemmas.Hooks

/-! Lemmas about token routers. -/

namespace Hpl.Warp

open Spec

variable {k : Kind} {C : Codec} {self : Addr} {valid : Addr → Bool} {own : Ownable.State} {s : State}
  {sender : Addr} {funds : List Coin}

theorem loadToken_ok {t : String} : loadToken s = .ok t ↔ s.token = some t := by
  unfold loadToken
  cases s.token <;> simp

theorem expectRoute_ok {d : UInt32} {r : Bytes} : expectRoute s d = .ok r ↔ Router.getRoute s.routes d = some r := by
  unfold expectRoute
  cases Router.getRoute s.routes d <;> simp

theorem toUint128_ok {n m : Nat} : toUint128 n = .ok m ↔ n < 2 ^ 128 ∧ m = n := by
  unfold toUint128
  by_cases h : n < u128Lim
  · rw [if_pos h]
    constructor
    · intro h'; cases h'; exact ⟨h, rfl⟩
    · rintro ⟨_, rfl⟩; rfl
  · rw [if_neg h]
    constructor
    · intro h'; cases h'
    · rintro ⟨h', _⟩; exact absurd h' h

theorem checkHook_ok {hook : Option Addr} : checkHook valid hook = .ok () ↔ ∀ a, hook = some a → valid a = true := by
  cases hook with
  | none => simp [checkHook]
  | some a => simp [checkHook, ensure_eq_ok]

theorem takeCoin_ok {token : String} {amount : Nat} {rest : List Coin} :
    takeCoin token amount funds = .ok rest ↔
      ∃ pre n post, funds = pre ++ ⟨token, n⟩ :: post ∧ (∀ c ∈ pre, c.denom ≠ token) ∧ amount ≤ n ∧
        rest = pre ++ ⟨token, n - amount⟩ :: post := by
  induction funds generalizing rest with
  | nil => simp [takeCoin]
  | cons c t ih =>
    simp only [takeCoin]
    by_cases hd : c.denom = token
    · rw [if_pos hd]
      by_cases ha : amount ≤ c.amount
      · rw [if_pos ha]
        constructor
        · intro h
          cases h
          exact ⟨[], c.amount, t, by rw [← hd]; rfl, by simp, ha, by rw [hd]; rfl⟩
        · rintro ⟨pre, n, post, h1, h2, h3, rfl⟩
          cases pre with
          | nil =>
            simp only [List.nil_append, List.cons.injEq] at h1
            obtain ⟨rfl, rfl⟩ := h1
            rfl
          | cons p q =>
            simp only [List.cons_append, List.cons.injEq] at h1
            exact absurd (h1.1 ▸ hd) (h2 p List.mem_cons_self)
      · rw [if_neg ha]
        constructor
        · intro h; cases h
        · rintro ⟨pre, n, post, h1, h2, h3, rfl⟩
          cases pre with
          | nil =>
            simp only [List.nil_append, List.cons.injEq] at h1
            obtain ⟨rfl, rfl⟩ := h1
            exact absurd h3 ha
          | cons p q =>
            simp only [List.cons_append, List.cons.injEq] at h1
            exact absurd (h1.1 ▸ hd) (h2 p List.mem_cons_self)
    · rw [if_neg hd, bind_eq_ok]
      constructor
      · rintro ⟨t', h1, hf⟩
        obtain ⟨pre, n, post, rfl, h2, h3, rfl⟩ := ih.1 h1
        simp only [pure_eq_ok, Except.ok.injEq] at hf
        refine ⟨c :: pre, n, post, rfl, ?_, h3, hf.symm⟩
        intro x hx
        rcases List.mem_cons.1 hx with rfl | hx
        · exact hd
        · exact h2 x hx
      · rintro ⟨pre, n, post, h1, h2, h3, rfl⟩
        cases pre with
        | nil =>
          simp only [List.nil_append, List.cons.injEq] at h1
          exact absurd (by rw [h1.1]) hd
        | cons p q =>
          simp only [List.cons_append, List.cons.injEq] at h1
          obtain ⟨rfl, rfl⟩ := h1
          exact ⟨q ++ ⟨token, n - amount⟩ :: post,
            ih.2 ⟨q, n, post, rfl, fun x hx => h2 x (List.mem_cons_of_mem _ hx), h3, rfl⟩, rfl⟩

theorem decode_ok {b : Bytes} {m : WarpMessage} :
    WarpMessage.decode b = .ok m ↔
      64 ≤ b.length ∧ m = ⟨bytesOf 0 32 b, fromBE (bytesOf 32 64 b), b.drop 64⟩ := by
  unfold WarpMessage.decode bytesOf
  constructor
  · intro h
    obtain ⟨r, h1, h⟩ := bind_eq_ok.1 h
    obtain ⟨a, h2, h⟩ := bind_eq_ok.1 h
    obtain ⟨md, h3, hf⟩ := bind_eq_ok.1 h
    obtain ⟨_, _, rfl⟩ := slice_eq_ok.1 h1
    obtain ⟨_, h4, rfl⟩ := slice_eq_ok.1 h2
    obtain ⟨_, rfl⟩ := sliceFrom_eq_ok.1 h3
    cases hf
    exact ⟨h4, rfl⟩
  · rintro ⟨h1, rfl⟩
    rw [slice_ok (by decide) (by omega), slice_ok (by decide) h1, sliceFrom_ok h1]
    rfl

theorem handle_ok {origin : UInt32} {msgSender body : Bytes} {r : Response} :
    handle k C self s sender origin msgSender body = .ok r ↔
      sender = s.mailbox ∧ Router.getRoute s.routes origin = some msgSender ∧ 64 ≤ body.length ∧
      ∃ dst token msgs, bech32Encode C s.hrp (bytesOf 0 32 body) = .ok dst ∧ s.token = some token ∧
        k.release self token s.mode dst (fromBE (bytesOf 32 64 body)) = .ok msgs ∧ r = { msgs := msgs } := by
  unfold handle
  constructor
  · intro h
    obtain ⟨_, h1, h⟩ := bind_eq_ok.1 h
    obtain ⟨rt, h2, h⟩ := bind_eq_ok.1 h
    obtain ⟨_, h3, h⟩ := bind_eq_ok.1 h
    obtain ⟨m, h4, h⟩ := bind_eq_ok.1 h
    obtain ⟨dst, h5, h⟩ := bind_eq_ok.1 h
    obtain ⟨t, h6, h⟩ := bind_eq_ok.1 h
    obtain ⟨ms, h7, hf⟩ := bind_eq_ok.1 h
    simp only [pure_eq_ok, Except.ok.injEq] at hf
    have e1 := of_decide_eq_true (ensure_eq_ok.1 h1)
    have e3 := of_decide_eq_true (ensure_eq_ok.1 h3)
    obtain ⟨e4, rfl⟩ := decode_ok.1 h4
    exact ⟨e1, by rw [e3]; exact expectRoute_ok.1 h2, e4, dst, t, ms, h5, loadToken_ok.1 h6, h7, hf.symm⟩
  · rintro ⟨rfl, h2, h3, dst, t, ms, h5, h6, h7, rfl⟩
    rw [expectRoute_ok.2 h2, decode_ok.2 ⟨h3, rfl⟩, loadToken_ok.2 h6]
    simp [h5, h7]

theorem transferRemote_ok {dest : UInt32} {recipient : Bytes} {amount : Nat} {hook : Option Addr}
    {metadata : Option Bytes} {r : Response} :
    transferRemote k valid self s sender funds dest recipient amount hook metadata = .ok r ↔
      amount < 2 ^ 128 ∧ (∀ a, hook = some a → valid a = true) ∧
      ∃ token p router, s.token = some token ∧ k.take self token s.mode sender funds amount = .ok p ∧
        Router.getRoute s.routes dest = some router ∧
        r = { msgs := p.2 ++ [dispatchMsg s dest router recipient amount hook metadata p.1] } := by
  unfold transferRemote
  constructor
  · intro h
    obtain ⟨_, h0, h⟩ := bind_eq_ok.1 h
    obtain ⟨t, h1, h⟩ := bind_eq_ok.1 h
    obtain ⟨p, h2, h⟩ := bind_eq_ok.1 h
    obtain ⟨rt, h3, h⟩ := bind_eq_ok.1 h
    obtain ⟨_, h4, hf⟩ := bind_eq_ok.1 h
    simp only [pure_eq_ok, Except.ok.injEq] at hf
    exact ⟨of_decide_eq_true (ensure_eq_ok.1 h0), checkHook_ok.1 h4, t, p, rt, loadToken_ok.1 h1, h2,
      expectRoute_ok.1 h3, hf.symm⟩
  · rintro ⟨h0, h4, t, p, rt, h1, h2, h3, rfl⟩
    have h0' : amount < u128Lim := h0
    rw [loadToken_ok.2 h1, expectRoute_ok.2 h3, checkHook_ok.2 h4]
    simp [h0', h2]

/-- Effect of a setting by the owner. -/
def apply (valid : Addr → Bool) (s : State) : Msg → Res State
  | .router m => .ok { s with routes := Router.setRoutes s.routes (remoteUpdates (.router m)) }
  | .connection (.setMailbox a) =>
    if valid a then .ok { s with conn := { s.conn with mailbox := some a } } else .error (.err "invalid")
  | .connection (.setIsm a) =>
    if valid a then .ok { s with conn := { s.conn with ism := some a } } else .error (.err "invalid")
  | .connection (.setHook a) =>
    if valid a then .ok { s with conn := { s.conn with hook := some a } } else .error (.err "invalid")
  | _ => .error (.err "not a setting")

theorem part_cfg {m c : Msg} {s' : State} (hk : warpCfg m = some c) :
    (∃ r, part k C self valid own s sender funds m = .ok (s', r)) ↔ own.owner = some sender ∧ apply valid s c = .ok s' := by
  cases m with
  | router m =>
    cases hk
    unfold part apply
    constructor
    · rintro ⟨r, h⟩
      obtain ⟨q, h1, hf⟩ := bind_eq_ok.1 h
      obtain ⟨h2, h3⟩ := Router.handle_ok.1 h1
      simp only [pure_eq_ok, Except.ok.injEq, Prod.mk.injEq] at hf
      refine ⟨h2, ?_⟩
      rw [← hf.1, h3]
      cases m <;> rfl
    · rintro ⟨h1, h2⟩
      simp only [Except.ok.injEq] at h2
      refine ⟨{}, bind_eq_ok.2 ⟨Router.setRoutes s.routes (remoteUpdates (.router m)),
        Router.handle_ok.2 ⟨h1, ?_⟩, ?_⟩⟩
      · cases m <;> rfl
      · rw [← h2]; rfl
  | connection m =>
    cases hk
    unfold part
    constructor
    · rintro ⟨r, h⟩
      obtain ⟨q, h1, hf⟩ := bind_eq_ok.1 h
      obtain ⟨h2, h3⟩ := Connection.handle_ok.1 h1
      simp only [pure_eq_ok, Except.ok.injEq, Prod.mk.injEq] at hf
      refine ⟨h2, ?_⟩
      rw [← hf.1]
      cases m <;> (obtain ⟨h4, rfl⟩ := h3; simp [apply, h4])
    · rintro ⟨h1, h2⟩
      have : ∃ q, Connection.handle valid own s.conn sender m = .ok q ∧ s' = { s with conn := q } := by
        cases m with
        | setMailbox a =>
          simp only [apply] at h2
          split at h2
          · rename_i hv
            cases h2
            exact ⟨_, Connection.handle_ok.2 ⟨h1, hv, rfl⟩, rfl⟩
          · cases h2
        | setIsm a =>
          simp only [apply] at h2
          split at h2
          · rename_i hv
            cases h2
            exact ⟨_, Connection.handle_ok.2 ⟨h1, hv, rfl⟩, rfl⟩
          · cases h2
        | setHook a =>
          simp only [apply] at h2
          split at h2
          · rename_i hv
            cases h2
            exact ⟨_, Connection.handle_ok.2 ⟨h1, hv, rfl⟩, rfl⟩
          · cases h2
      obtain ⟨q, hq, rfl⟩ := this
      exact ⟨{}, bind_eq_ok.2 ⟨q, hq, rfl⟩⟩
  | handle => cases hk
  | transferRemote => cases hk

theorem part_cfg_msgs {m c : Msg} {x : State × Response} (hk : warpCfg m = some c)
    (h : part k C self valid own s sender funds m = .ok x) : x.2 = {} := by
  cases m with
  | router m =>
    obtain ⟨_, _, hf⟩ := bind_eq_ok.1 h
    cases hf; rfl
  | connection m =>
    obtain ⟨_, _, hf⟩ := bind_eq_ok.1 h
    cases hf; rfl
  | handle => cases hk
  | transferRemote => cases hk

theorem part_rest {m : Msg} {s' : State} {r : Response} (hk : warpCfg m = none)
    (h : part k C self valid own s sender funds m = .ok (s', r)) : s' = s := by
  cases m with
  | handle a b c =>
    obtain ⟨_, _, hf⟩ := bind_eq_ok.1 h
    cases hf; rfl
  | transferRemote a b c d e =>
    obtain ⟨_, _, hf⟩ := bind_eq_ok.1 h
    cases hf; rfl
  | router => cases hk
  | connection => cases hk

/-- The state after a history. -/
theorem run_state (k : Kind) (C : Codec) (self : Addr) (own : Ownable.State) (s : State)
    (h : List (ExecCall (Addr → Bool) Msg)) :
    (run (stepOf (execute k C self)) (own, s) h).2 =
      let l := ownerCalls id warpCfg own h
      { s with
        conn := ⟨(l.flatMap connMailboxOf).getLast?.or s.conn.mailbox, (l.flatMap connIsmOf).getLast?.or s.conn.ism,
          (l.flatMap connHookOf).getLast?.or s.conn.hook⟩
        routes := Router.setRoutes s.routes (l.flatMap (fun x => remoteUpdates x.2)) } := by
  unfold execute
  rw [run_execOwned warpCfg apply (fun _ _ _ _ _ _ _ _ hk => part_cfg hk)
    (fun _ _ _ _ _ _ _ _ hk hp => part_rest hk hp)]
  have hall : ∀ x ∈ ownerCalls id warpCfg own h, warpCfg x.2 = some x.2 := by
    intro x hx
    obtain ⟨m, hm⟩ := ownerCalls_mem hx
    revert hm
    cases m <;> simp only [warpCfg, Option.some.injEq, reduceCtorEq, false_implies] <;> intro hm <;> rw [← hm]
  revert hall
  generalize ownerCalls id warpCfg own h = c
  intro hall
  induction c using List.reverseRecOn with
  | nil => simp [Router.setRoutes]
  | append_singleton t x ih =>
    rw [run_snoc, ih (fun y hy => hall y (List.mem_append_left _ hy))]
    have hx := hall x (by simp)
    obtain ⟨e, m⟩ := x
    simp only [List.flatMap_append, Router.setRoutes_append]
    cases m with
    | router m =>
      cases m <;> simp [applyCall, apply, remoteUpdates, connMailboxOf, connIsmOf, connHookOf]
    | connection m =>
      cases m with
      | setMailbox a =>
        by_cases hv : e a = true <;>
          simp [applyCall, apply, remoteUpdates, connMailboxOf, connIsmOf, connHookOf, Router.setRoutes, hv]
      | setIsm a =>
        by_cases hv : e a = true <;>
          simp [applyCall, apply, remoteUpdates, connMailboxOf, connIsmOf, connHookOf, Router.setRoutes, hv]
      | setHook a =>
        by_cases hv : e a = true <;>
          simp [applyCall, apply, remoteUpdates, connMailboxOf, connIsmOf, connHookOf, Router.setRoutes, hv]
    | handle => cases hx
    | transferRemote => cases hx

end Hpl.Warp
