import Verif.Model.Message
import Verif.Lemmas.Bytes
import Verif.Lemmas.Res

/-! Helper lemmas about message encoding. -/

namespace Hpl.Message

theorem length_encode (m : Message) (hs : m.sender.length = 32) (hr : m.recipient.length = 32) :
    m.encode.length = 77 + m.body.length := by
  simp [encode, hs, hr]; omega

theorem decode_encode (m : Message) (hs : m.sender.length = 32) (hr : m.recipient.length = 32) :
    decode m.encode = .ok m := by
  have hl := length_encode m hs hr
  unfold decode
  rw [slice_ok (by decide) (by omega), slice_ok (by decide) (by omega),
    slice_ok (by decide) (by omega), slice_ok (by decide) (by omega),
    slice_ok (by decide) (by omega), sliceFrom_ok (by omega)]
  have e0 : index m.encode 0 = .ok m.version := rfl
  have e1 : (m.encode.drop 1).take (5 - 1) = u32be m.nonce := by
    simp [encode]
  have e2 : (m.encode.drop 5).take (9 - 5) = u32be m.origin := by
    have : m.encode = ([m.version] ++ u32be m.nonce) ++ (u32be m.origin ++ (m.sender ++
      (u32be m.dest ++ (m.recipient ++ m.body)))) := by simp [encode]
    rw [this]; exact drop_take_append _ _ _ _ _ (by simp) (by simp)
  have e3 : (m.encode.drop 9).take (41 - 9) = m.sender := by
    have : m.encode = ([m.version] ++ u32be m.nonce ++ u32be m.origin) ++ (m.sender ++
      (u32be m.dest ++ (m.recipient ++ m.body))) := by simp [encode]
    rw [this]; exact drop_take_append _ _ _ _ _ (by simp) (by simp [hs])
  have e4 : (m.encode.drop 41).take (45 - 41) = u32be m.dest := by
    have : m.encode = ([m.version] ++ u32be m.nonce ++ u32be m.origin ++ m.sender) ++
      (u32be m.dest ++ (m.recipient ++ m.body)) := by simp [encode]
    rw [this]; exact drop_take_append _ _ _ _ _ (by simp [hs]) (by simp)
  have e5 : (m.encode.drop 45).take (77 - 45) = m.recipient := by
    have : m.encode = ([m.version] ++ u32be m.nonce ++ u32be m.origin ++ m.sender ++
      u32be m.dest) ++ (m.recipient ++ m.body) := by simp [encode]
    rw [this]; exact drop_take_append _ _ _ _ _ (by simp [hs]) (by simp [hr])
  have e6 : m.encode.drop 77 = m.body := by
    have : m.encode = ([m.version] ++ u32be m.nonce ++ u32be m.origin ++ m.sender ++
      u32be m.dest ++ m.recipient) ++ m.body := by simp [encode]
    rw [this, List.drop_append_of_le_length (by simp [hs, hr])]
    rw [List.drop_eq_nil_of_le (by simp [hs, hr]), List.nil_append]
  rw [e0, e1, e2, e3, e4, e5, e6]
  simp

theorem decode_eq_ok {v : Bytes} {m : Message} :
    decode v = .ok m ↔ m.encode = v ∧ m.sender.length = 32 ∧ m.recipient.length = 32 := by
  constructor
  · intro h
    unfold decode at h
    obtain ⟨ver, h0, h⟩ := bind_eq_ok.1 h
    obtain ⟨n, h1, h⟩ := bind_eq_ok.1 h
    obtain ⟨o, h2, h⟩ := bind_eq_ok.1 h
    obtain ⟨s, h3, h⟩ := bind_eq_ok.1 h
    obtain ⟨d, h4, h⟩ := bind_eq_ok.1 h
    obtain ⟨r, h5, h⟩ := bind_eq_ok.1 h
    obtain ⟨b, h6, h⟩ := bind_eq_ok.1 h
    obtain ⟨_, g1, rfl⟩ := slice_eq_ok.1 h1
    obtain ⟨_, g2, rfl⟩ := slice_eq_ok.1 h2
    obtain ⟨_, g3, rfl⟩ := slice_eq_ok.1 h3
    obtain ⟨_, g4, rfl⟩ := slice_eq_ok.1 h4
    obtain ⟨_, g5, rfl⟩ := slice_eq_ok.1 h5
    obtain ⟨_, rfl⟩ := sliceFrom_eq_ok.1 h6
    cases h
    refine ⟨?_, by simp; omega, by simp; omega⟩
    have hver : [ver] = v.take 1 := by
      cases v with
      | nil => simp at g1
      | cons a t =>
        simp only [index, List.getElem?_cons_zero] at h0
        cases h0; rfl
    simp only [encode]
    rw [u32be_ofU32be (by simp; omega), u32be_ofU32be (by simp; omega),
      u32be_ofU32be (by simp; omega), hver]
    have c : ∀ i j : Nat, i ≤ j → (v.drop i).take (j - i) ++ v.drop j = v.drop i := by
      intro i j hij
      have : v.drop j = (v.drop i).drop (j - i) := by rw [List.drop_drop]; congr 1; omega
      rw [this, List.take_append_drop]
    rw [c 45 77 (by decide), c 41 45 (by decide), c 9 41 (by decide), c 5 9 (by decide),
      c 1 5 (by decide), List.take_append_drop]
  · rintro ⟨rfl, hs, hr⟩
    exact decode_encode m hs hr

theorem encode_inj {a b : Message} (ha : a.sender.length = 32) (ha' : a.recipient.length = 32)
    (hb : b.sender.length = 32) (hb' : b.recipient.length = 32) (h : a.encode = b.encode) :
    a = b := by
  have h1 := decode_encode a ha ha'
  rw [h, decode_encode b hb hb'] at h1
  cases h1; rfl

theorem decode_short {v : Bytes} (h : v.length < 77) : ∃ t, decode v = .error (.panic t) := by
  unfold decode index slice sliceFrom
  cases hv : v[0]? with
  | none => exact ⟨_, rfl⟩
  | some x =>
    simp only [ok_bind]
    split
    · simp only [ok_bind]
      split
      · simp only [ok_bind]
        split
        · simp only [ok_bind]
          split
          · simp only [ok_bind]
            split
            · omega
            · exact ⟨_, rfl⟩
          · exact ⟨_, rfl⟩
        · exact ⟨_, rfl⟩
      · exact ⟨_, rfl⟩
    · exact ⟨_, rfl⟩

theorem decode_long {v : Bytes} (h : 77 ≤ v.length) : ∃ m, decode v = .ok m := by
  unfold decode
  rw [slice_ok (by decide) (by omega), slice_ok (by decide) (by omega),
    slice_ok (by decide) (by omega), slice_ok (by decide) (by omega),
    slice_ok (by decide) (by omega), sliceFrom_ok (by omega)]
  cases v with
  | nil => simp at h
  | cons a t => exact ⟨_, rfl⟩

end Hpl.Message
