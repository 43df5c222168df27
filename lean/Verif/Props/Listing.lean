import Verif.Lemmas.Interface
import Verif.Lemmas.Isms
import Verif.Model.Listing
import Verif.Props.Hooks
import Verif.Props.Packages

/-! # The listing of custom hooks (C77) -/

namespace Hpl

open Spec CustomHook

theorem hex_read (b : Bytes) : fromHexString (hexText b) = .ok b := by
  have : hexText b = Spec.toHex b := by
    have hd : ∀ n, n < 16 → "0123456789abcdef".toList[n]! = digit n := by decide +kernel
    unfold hexText Spec.toHex
    congr 1
    refine List.flatMap_congr fun x _ => ?_
    have hx := x.toNat_lt
    rw [hd _ (by omega), hd _ (by omega)]
  rw [this]
  exact fromHexString_toHex b

theorem findKey_iff_mem {κ ν : Type} [LinearOrder κ] {k : κ} {v : ν} {l : List (κ × ν)}
    (hl : ∀ v v', (k, v) ∈ l → (k, v') ∈ l → v = v') : findKey k l = some v ↔ (k, v) ∈ l := by
  constructor
  · intro h
    induction l with
    | nil => cases h
    | cons x t ih =>
      obtain ⟨a, y⟩ := x
      rw [findKey] at h
      split at h
      · rename_i e
        subst e
        cases h
        exact .head _
      · exact .tail _ (ih (fun v v' h h' => hl v v' (.tail _ h) (.tail _ h')) h)
  · intro h
    cases hf : findKey k l with
    | none => exact absurd rfl (findKey_eq_none.1 hf _ h)
    | some y =>
      have : (k, y) ∈ l := by
        clear hl h
        induction l with
        | nil => cases hf
        | cons x t ih =>
          obtain ⟨a, z⟩ := x
          rw [findKey] at hf
          split at hf
          · rename_i e
            subst e
            cases hf
            exact .head _
          · exact .tail _ (ih hf)
      rw [hl y v this h]

theorem get_under (m : OMap Key Addr) (d : UInt32) (b : Bytes) : (under m d).get b = m.get (toLex (d, b)) := by
  have hmem : ∀ v, (b, v) ∈ ((m.entries.filter (fun p => (ofLex p.1).1 = d)).map (fun p => ((ofLex p.1).2, p.2))) ↔
      (toLex (d, b), v) ∈ m.entries := by
    intro v
    simp only [List.mem_map, List.mem_filter, decide_eq_true_eq, Prod.mk.injEq]
    constructor
    · rintro ⟨⟨k, v'⟩, ⟨h1, h2⟩, h3, h4⟩
      simp only at h2 h3 h4
      subst h4
      have : k = toLex (d, b) := by
        apply ofLex.injective
        rw [ofLex_toLex, ← h2, ← h3]
      rw [← this]
      exact h1
    · intro h
      exact ⟨_, ⟨h, rfl⟩, rfl, rfl⟩
  apply Option.ext
  intro v
  unfold under
  rw [OMap.get_ofList_reverse, findKey_iff_mem, List.mem_reverse, hmem, OMap.get_eq_some_iff]
  intro v v' h h'
  rw [List.mem_reverse, hmem] at h h'
  have := OMap.get_eq_some_iff.2 h
  rw [OMap.get_eq_some_iff.2 h'] at this
  exact (Option.some.inj this).symm

/-- A client that passes on texts reads the same pages. -/
theorem followPages_text {κ κ' ν : Type} (f : κ → κ') (page : Option κ → Res (List (κ × ν)))
    (page' : Option κ' → Res (List (κ' × ν)))
    (hp : ∀ start, page' (start.map f) = (page start).map (List.map (fun p => (f p.1, p.2)))) (n : Nat) (start : Option κ) :
    followPages page' n (start.map f) = (followPages page n start).map (List.map (fun p => (f p.1, p.2))) := by
  induction n generalizing start with
  | zero => rfl
  | succ n ih =>
    rw [followPages, followPages, hp]
    cases page start with
    | error e => rfl
    | ok l =>
      simp only [Except.map]
      rw [List.getLast?_map]
      cases l.getLast? with
      | none => rfl
      | some x =>
        obtain ⟨k, v⟩ := x
        simp only [Option.map_some]
        have := ih (some k)
        rw [Option.map_some] at this
        rw [this]
        cases followPages page n (some k) with
        | none => rfl
        | some r => simp

theorem registered_length {owner : Addr} {h : List (ExecCall HookEnv CustomHook.Msg)} {d : UInt32} {b : Bytes}
    {hook : Addr} (hm : ((d, b), some hook) ∈ registrations owner h) : b.length = 32 := by
  unfold registrations at hm
  obtain ⟨x, _, hx⟩ := List.mem_flatMap.1 hm
  obtain ⟨e, u⟩ := x
  rcases u with u | u | u
  · cases hx
  · simp only [customUpdates, allOrNone] at hx
    split at hx
    · simp only [List.mem_filterMap, List.mem_map, id_eq, exists_eq_right] at hx
      obtain ⟨r, _, hr⟩ := hx
      unfold registrationEntry at hr
      obtain ⟨y, _, hy⟩ := Option.bind_eq_some_iff.1 hr
      split at hy
      · rename_i hc
        simp only [Option.some.injEq, Prod.mk.injEq] at hy
        rw [← hy.1.2]
        exact hc.1
      · cases hy
    · cases hx
  · simp only [customUpdates, allOrNone] at hx
    split at hx
    · simp only [List.mem_filterMap, List.mem_map, id_eq, exists_eq_right] at hx
      obtain ⟨r, _, hr⟩ := hx
      unfold clearingEntry at hr
      obtain ⟨y, _, hy⟩ := Option.map_eq_some_iff.1 hr
      simp at hy
    · cases hx

/-- Pages of the listing as pairs of recipient and hook. -/
def Spec.hookPage (s : Ownable.State × CustomHook.State) (d : UInt32) (limit : Option UInt32) (order : Option Order)
    (offset : Option String) : Res (List (String × Addr)) :=
  (listCustomHooks s d offset limit order).map (List.map (fun e => (e.recipient, e.hook)))

/-- **C77.** After any history, reading the listing of a destination page by page (with page sizes of 1 to 30 or the
default one, passing on the last recipient as it was written) terminates and yields exactly the registrations of the
owner for that destination that are not cleared or replaced since: each once, in the order of the recipients, 32 bytes in
hexadecimal. The query for a single recipient answers the same, and messages to that recipient are passed to the hook
listed. -/
theorem C77_custom_listing {valid : Addr → Bool} {owner : Addr} {s0 : Ownable.State × CustomHook.State}
    (h0 : instantiate valid owner = .ok s0) (h : List (ExecCall HookEnv CustomHook.Msg)) (d : UInt32) :
    let s := run (stepOf execute) s0 h
    let inForce := fun (b : Bytes) (hook : Addr) => lastFor (d, b) (registrations owner h) = some (some hook)
    (∀ (order : Option Order) (limit : Option UInt32), (∀ k, limit = some k → 1 ≤ k ∧ k ≤ 30) →
      ∃ requests, ∀ n, requests < n → ∃ l : List (Bytes × Addr),
        followPages (hookPage s d limit order) n none = some (l.map (fun p => (hexText p.1, p.2))) ∧
        (match order.getD .asc with
          | .asc => (l.map (·.1)).Pairwise (· < ·)
          | .desc => (l.map (·.1)).Pairwise (· > ·)) ∧
        ∀ b hook, (b, hook) ∈ l ↔ inForce b hook) ∧
    (∀ limit : UInt32, 30 < limit → ∀ offset order, ∃ e, listCustomHooks s d offset (some limit) order = .error e) ∧
    (∀ offset limit order l, listCustomHooks s d offset limit order = .ok l → ∀ e ∈ l, e.dest = d) ∧
    (∀ b e, customHook s d (hexText b) = .ok e ↔ ∃ hook, inForce b hook ∧ e = ⟨d, hexText b, hook⟩) ∧
    (∀ b hook, inForce b hook → b.length = 32 ∧ ∀ message md env sender funds, 77 ≤ message.length → destOf message = d →
      recipientOf message = b → execute s (postCall .postDispatch env sender funds md message) =
        .ok (s, { msgs := [.execute hook (.postDispatch md message) []] })) := by
  intro s inForce
  have hs0 : s0 = (Ownable.init owner, ⟨OMap.empty, OMap.empty⟩) := by
    unfold instantiate at h0
    obtain ⟨_, _, hf⟩ := bind_eq_ok.1 h0
    cases hf; rfl
  have hs : s.2 = ⟨Router.setRoutes OMap.empty (customRouteUpdates owner h),
      writeAll OMap.empty (registrations owner h)⟩ := by
    subst hs0
    exact run_state _ _ h
  have hg : ∀ b hook, s.2.custom.get (toLex (d, b)) = some hook ↔ inForce b hook := by
    intro b hook
    rw [hs, get_writeAll]
    simp only [inForce]
    rcases lastFor (d, b) (registrations owner h) with _ | _ | a <;> simp
  refine ⟨?_, ?_, ?_, ?_, ?_⟩
  · intro order limit hlim
    have hpage : ∀ start : Option Bytes, hookPage s d limit order (start.map hexText) =
        (rangePage (under s.2.custom d) start limit order).map (List.map (fun p => (hexText p.1, p.2))) := by
      intro start
      unfold hookPage listCustomHooks
      have hr : readOffset (start.map hexText) = .ok start := by
        cases start with
        | none => rfl
        | some b =>
          simp only [Option.map_some, readOffset, hex_read]
          rfl
      rw [hr, ok_bind]
      cases rangePage (under s.2.custom d) start limit order with
      | error e => rfl
      | ok l =>
        simp only [ok_bind, pure_eq_ok, Except.map, List.map_map, Function.comp_def, Interface.hexText_eq]
    refine ⟨(under s.2.custom d).entries.length, fun n hn => ?_⟩
    obtain ⟨r, r1, r2, r3⟩ := (C30_pagination (under s.2.custom d) order).1 limit hlim n hn
    refine ⟨r, ?_, r2, fun b hook => by rw [r3, get_under, hg]⟩
    have := followPages_text hexText _ _ hpage n none
    rw [r1] at this
    exact this
  · intro limit hl offset order
    unfold listCustomHooks
    cases readOffset offset with
    | error e => exact ⟨e, rfl⟩
    | ok start =>
      obtain ⟨e, he⟩ := (C30_pagination (under s.2.custom d) order).2 limit hl start
      exact ⟨e, by rw [ok_bind, he]; rfl⟩
  · intro offset limit order l hl e he
    unfold listCustomHooks at hl
    obtain ⟨_, _, hl⟩ := bind_eq_ok.1 hl
    obtain ⟨x, _, hl⟩ := bind_eq_ok.1 hl
    cases hl
    obtain ⟨p, _, rfl⟩ := List.mem_map.1 he
    rfl
  · intro b e
    unfold customHook getCustomHook
    rw [hex_read, ok_bind, ok_bind, bind_eq_ok]
    simp only [RoutingHook.found_ok, hg, pure_eq_ok, Except.ok.injEq, Interface.hexText_eq]
    exact exists_congr fun hook => and_congr_right fun _ => eq_comm
  · intro b hook hb
    refine ⟨?_, ?_⟩
    · exact registered_length (lastFor_mem hb)
    · intro message md env sender funds h1 h2 h3
      refine ((C51_custom h0 h md message).1 env sender funds _ _).2 ⟨h1, hook, ?_, rfl, rfl⟩
      rw [h2, h3, show lastFor (d, b) (registrations owner h) = some (some hook) from hb]
      rfl

/-- Two recipients registered, one of them in capitals and replaced later; read one at a time. -/
def Ex.listHistory : List (ExecCall HookEnv CustomHook.Msg) :=
  [⟨Ex.hookEnv, Ex.alice, [], .inr (.register
     [⟨1, "00000000000000000000000000000000000000000000000000000000000000AB", "one"⟩,
      ⟨1, "0000000000000000000000000000000000000000000000000000000000000001", "two"⟩,
      ⟨2, "0000000000000000000000000000000000000000000000000000000000000007", "else"⟩])⟩,
   ⟨Ex.hookEnv, "mallory", [], .inr (.clear
     [⟨1, "0000000000000000000000000000000000000000000000000000000000000001"⟩])⟩,
   ⟨Ex.hookEnv, Ex.alice, [], .inr (.register
     [⟨1, "00000000000000000000000000000000000000000000000000000000000000ab", "three"⟩])⟩]

def Ex.listState : Ownable.State × CustomHook.State :=
  run (stepOf CustomHook.execute) (Ownable.init Ex.alice, ⟨OMap.empty, OMap.empty⟩) Ex.listHistory

example : CustomHook.instantiate (fun _ => true) Ex.alice = .ok (Ownable.init Ex.alice, ⟨OMap.empty, OMap.empty⟩) := rfl

example : followPages (hookPage Ex.listState 1 (some 1) none) 3 none =
    some [("0000000000000000000000000000000000000000000000000000000000000001", "two"),
      ("00000000000000000000000000000000000000000000000000000000000000ab", "three")] := by
  decide +kernel

end Hpl
