import Verif.Model.Keccak
import Verif.Props.Merkle

/-! # C14: the hard-coded empty-subtree hashes; concrete instances of C09 and C12 for keccak256 -/

namespace Hpl

open Merkle Spec

/-- `ZERO_HASHES`, `/repo/packages/interface/src/types/merkle.rs` 11-44 (hex strings written as 32-byte big-endian
numerals). -/
def zeroHashes : List Bytes :=
  [beN 32 0x0000000000000000000000000000000000000000000000000000000000000000,
   beN 32 0xad3228b676f7d3cd4284a5443f17f1962b36e491b30a40b2405849e597ba5fb5,
   beN 32 0xb4c11951957c6f8f642c4af61cd6b24640fec6dc7fc607ee8206a99e92410d30,
   beN 32 0x21ddb9a356815c3fac1026b6dec5df3124afbadb485c9ba5a3e3398a04b7ba85,
   beN 32 0xe58769b32a1beaf1ea27375a44095a0d1fb664ce2dd358e7fcbfb78c26a19344,
   beN 32 0x0eb01ebfc9ed27500cd4dfc979272d1f0913cc9f66540d7e8005811109e1cf2d,
   beN 32 0x887c22bd8750d34016ac3c66b5ff102dacdd73f6b014e710b51e8022af9a1968,
   beN 32 0xffd70157e48063fc33c97a050f7f640233bf646cc98d9524c6b92bcf3ab56f83,
   beN 32 0x9867cc5f7f196b93bae1e27e6320742445d290f2263827498b54fec539f756af,
   beN 32 0xcefad4e508c098b9a7e1d8feb19955fb02ba9675585078710969d3440f5054e0,
   beN 32 0xf9dc3e7fe016e050eff260334f18a5d4fe391d82092319f5964f2e2eb7c1c3a5,
   beN 32 0xf8b13a49e282f609c317a833fb8d976d11517c571d1221a265d25af778ecf892,
   beN 32 0x3490c6ceeb450aecdc82e28293031d10c7d73bf85e57bf041a97360aa2c5d99c,
   beN 32 0xc1df82d9c4b87413eae2ef048f94b4d3554cea73d92b0f7af96e0271c691e2bb,
   beN 32 0x5c67add7c6caf302256adedf7ab114da0acfe870d449a3a489f781d659e8becc,
   beN 32 0xda7bce9f4e8618b6bd2f4132ce798cdc7a60e7e1460a7299e3c6342a579626d2,
   beN 32 0x2733e50f526ec2fa19a22b31e8ed50f23cd1fdf94c9154ed3a7609a2f1ff981f,
   beN 32 0xe1d3b5c807b281e4683cc6d6315cf95b9ade8641defcb32372f1c126e398ef7a,
   beN 32 0x5a2dce0a8a7f68bb74560f8f71837c2c2ebbcbf7fffb42ae1896f13f7c7479a0,
   beN 32 0xb46a28b6f55540f89444f63de0378e3d121be09e06cc9ded1c20e65876d36aa0,
   beN 32 0xc65e9645644786b620e2dd2ad648ddfcbf4a7e5b1a3a4ecfe7f64667a3f0b7e2,
   beN 32 0xf4418588ed35a2458cffeb39b93d26f18d2ab13bdce6aee58e7b99359ec2dfd9,
   beN 32 0x5a9c16dc00d6ef18b7933a6f8dc65ccb55667138776f7dea101070dc8796e377,
   beN 32 0x4df84f40ae0c8229d0d6069e5c8f39a7c299677a09d367fc7b05e3bc380ee652,
   beN 32 0xcdc72595f74c7b1043d0e1ffbab734648c838dfb0527d971b602bc216c9619ef,
   beN 32 0x0abf5ac974a1ed57f4050aa510dd9c74f508277b39d7973bb2dfccc5eeb0618d,
   beN 32 0xb8cd74046ff337f0a7bf2c8e03e10f642c1886798d71806ab1e888d9e5ee87d0,
   beN 32 0x838c5655cb21c6cb83313b5a631175dff4963772cce9108188b34ac87c81c41e,
   beN 32 0x662ee4dd2dd7b2bc707961b1e646c4047669dcb6584f0d8d770daf5d7e7deb2e,
   beN 32 0x388ab20e2573d171a88108e79d820e98f26c0b84aa8b2f4aa4968dbb818ea322,
   beN 32 0x93237c50ba75ee485f4c22adf2f741400bdf8d6a9cc7df7ecae576221665d735,
   beN 32 0x8448818bb4ae4562849e949e17ac16e0be16688e156b5cf15e098c627c0056a9]

theorem length_leBytes (n v : Nat) : (Keccak.leBytes n v).length = n := by
  induction n generalizing v with
  | zero => rfl
  | succ n ih => simp [Keccak.leBytes, ih]

theorem length_keccak256 (m : Bytes) : (Keccak.keccak256 m).length = 32 := length_leBytes _ _

/-- C14. The 32 constants start with 32 zero bytes and each one is the keccak256 of its predecessor
concatenated with itself (complete enumeration, evaluated by the kernel). -/
theorem C14_zero_hashes : ZeroChain Keccak.keccak256 zeroHashes := by
  refine ⟨by decide, by decide +kernel, ?_⟩
  have key : ∀ i < 31, zeroHashes.getD (i + 1) [] =
      Keccak.keccak256 (zeroHashes.getD i [] ++ zeroHashes.getD i []) := by decide +kernel
  intro i a b ha hb
  have hi : i < 31 := by
    by_contra hc
    rw [List.getElem?_eq_none (by simp [zeroHashes]; omega)] at hb
    cases hb
  have h := key i hi
  rw [List.getD_eq_getElem?_getD, List.getD_eq_getElem?_getD, ha, hb] at h
  exact h

/-- C09 for the real hash and the real constants, without hypotheses on either. -/
theorem C09_root_correct_keccak (leaves : List Bytes) (t : Tree)
    (ht : insertAll Keccak.keccak256 (Merkle.default zeroHashes) leaves = .ok t) :
    Merkle.root Keccak.keccak256 zeroHashes t = treeRoot Keccak.keccak256 32 (leafOf leaves) :=
  C09_root_correct _ _ C14_zero_hashes leaves t ht

/-- keccak256 of the empty string (published test vector). -/
example : Keccak.keccak256 [] =
    beN 32 0xc5d2460186f7233c927e7db2dcc703c0e500b653ca82273b7bfad8045d85a470 := by decide +kernel

/-- keccak256("hello_world"), from the repository's test `test_compatibility` (merkle.rs). -/
example : Keccak.keccak256 [104, 101, 108, 108, 111, 95, 119, 111, 114, 108, 100] =
    beN 32 0x5b07e077a81ffc6b47435f65a8727bcc542bc6fc0f25a56210efb1a74b88a5ae := by decide +kernel

/-- The hypothesis of `C09_root_correct_keccak` is met by any list of at most `2^32 - 1` leaves. -/
example : ∃ t, insertAll Keccak.keccak256 (Merkle.default zeroHashes)
    [Keccak.keccak256 [1], Keccak.keccak256 [2]] = .ok t :=
  (C13_capacity _ _ C14_zero_hashes.1 _).2 (by simp)

end Hpl
