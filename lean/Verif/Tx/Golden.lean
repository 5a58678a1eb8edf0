import Verif.Tx.Model
/-!
# The two golden transactions of the repository, reproduced by the model

These are tests of the model, not proofs. The key and the signature are taken from the golden file.
-/
set_option autoImplicit false

namespace Cardano.TxBuilder
open Transaction

/-- Bytes of a hexadecimal literal. -/
def hexLit (s : String) : Bytes := (Hex.decode (asc s.toList)).1

/-- Public key and signature as in the golden file. -/
def goldenCrypto (sig : Bytes) : Crypto :=
  ⟨fun _ => List.replicate 32 0, fun _ => .ok (hexLit "f623f6c21958349e8d3c2c6c7e03eacddefd085f6b26730d50e203b3c36c1ea0"), fun _ _ => .ok sig⟩

/-- The change address of `TestTxBuilderRaw`, as the text in the test. -/
def goldenChangeText : Bytes := asc "addr_test1qrf96nk9l8snyxd5a2x460rvsjdjkthmesxrq8x2fy5r0f0hnrvhwtnsuxzhvp752vuuxtjptuz7wfgtthedq6lthf6qhf562f".toList

/-- What the text stands for. -/
def goldenChange : Address := .base TestNet
  ⟨0, [210, 93, 78, 197, 249, 225, 50, 25, 180, 234, 141, 93, 60, 108, 132, 155, 43, 46, 251, 204, 12, 48, 28, 202, 73, 40, 55, 165]⟩
  ⟨0, [247, 152, 217, 119, 46, 112, 225, 133, 118, 7, 212, 83, 57, 195, 46, 65, 95, 5, 231, 37, 11, 93, 242, 208, 107, 235, 186, 116]⟩

theorem goldenChange_parsed : Addr.NewAddress true goldenChangeText [] = .ok goldenChange := by decide +kernel

/-- The builder of `TestTxBuilderRaw` after `SetTTL`. -/
def goldenStart (receiver : Address) : Builder :=
  let b := NewTxBuilder ⟨44, 155381, 16384, 1000000⟩ []
  let b := AddInputs b [NewTxInput (asc "fcbc18c64cdf133f33dd319c5105dc7c4972f2d646ae276fbd00cf7f39f8c380".toList) 0 10000000]
  let b := AddOutputs b [⟨receiver, 5000000⟩]
  SetTTL b 55267575

/-- The builder of `TestTxBuilderRaw` after `Sign`. -/
def goldenBuilder (C : Crypto) (receiver change : Address) : Builder :=
  Sign (AddChangeIfNeeded C (goldenStart receiver) change) []

/-- The same, given the fee. -/
def goldenPaid (C : Crypto) (receiver change : Address) (fee : UInt64) : Builder :=
  let b := SetFee (MinFee C (goldenStart receiver)).2 fee
  Sign (AddOutputs b [⟨change, totalIn b.body.inputs - totalOut b.body.outputs - b.body.fee⟩]) []

theorem goldenBuilder_eq (C : Crypto) (receiver change : Address) :
    goldenBuilder C receiver change = goldenPaid C receiver change (MinFee C (goldenStart receiver)).1 := by
  unfold goldenBuilder goldenPaid AddChangeIfNeeded
  rfl

/-- `Build` and the text of the result. -/
def goldenBuild (C : Crypto) (b : Builder) : Res Bytes :=
  match Build C b with
  | (.ok h, b) => hex C (view b h) b.clock
  | _ => .panic

/-- The calls of `TestTxBuilderRaw` (tx/tx_builder_test.go:109-199), for a given receiver. -/
def goldenRun (sig : Bytes) (receiver : Address) : Res Bytes :=
  match Addr.NewAddress true goldenChangeText [] with
  | .ok change => goldenBuild (goldenCrypto sig) (goldenBuilder (goldenCrypto sig) receiver change)
  | _ => .panic

theorem goldenRun_eq (sig : Bytes) (receiver : Address) (fee : UInt64) (h : (MinFee (goldenCrypto sig) (goldenStart receiver)).1 = fee) :
    goldenRun sig receiver = goldenBuild (goldenCrypto sig) (goldenPaid (goldenCrypto sig) receiver goldenChange fee) := by
  unfold goldenRun
  rw [goldenChange_parsed]
  dsimp only
  rw [goldenBuilder_eq, h]

def goldenPayment : Cred := ⟨0, hexLit "a597e3dc6a2f0b110c31c42abf0965b9705dd3f291c6091a277b3697"⟩
def goldenStake : Cred := ⟨0, hexLit "0819b5831950cb576926eaf9e74706ae43d251a7bf8906a9e1a140a3"⟩

example : goldenRun (hexLit "004a496fb23d3fa701fb3beed2564396222397041324904f5eec10ffe7b16b923cd0d2fa69c4395603a7870a8046378265216e4a03b5d6efd501a55a3e58b001") (.base MainNet goldenPayment goldenStake) =
    .ok (asc "84a40081825820fcbc18c64cdf133f33dd319c5105dc7c4972f2d646ae276fbd".toList ++
      asc "00cf7f39f8c38000018282583901a597e3dc6a2f0b110c31c42abf0965b9705d".toList ++
      asc "d3f291c6091a277b36970819b5831950cb576926eaf9e74706ae43d251a7bf89".toList ++
      asc "06a9e1a140a31a004c4b4082583900d25d4ec5f9e13219b4ea8d5d3c6c849b2b".toList ++
      asc "2efbcc0c301cca492837a5f798d9772e70e1857607d45339c32e415f05e7250b".toList ++
      asc "5df2d06bebba741a0049ba73021a000290cd031a034b50f7a10081825820f623".toList ++
      asc "f6c21958349e8d3c2c6c7e03eacddefd085f6b26730d50e203b3c36c1ea05840".toList ++
      asc "004a496fb23d3fa701fb3beed2564396222397041324904f5eec10ffe7b16b92".toList ++
      asc "3cd0d2fa69c4395603a7870a8046378265216e4a03b5d6efd501a55a3e58b001".toList ++
      asc "f5f6".toList) := by
  refine (goldenRun_eq _ _ 168141 (by decide +kernel)).trans ?_
  decide +kernel

example : goldenRun (hexLit "3e54c3c618143a1b59324e5e79a054f4bece1dec3a26cf574af31521a2bbd11a72bc17852ff791e196a64ee74f8d8aa90755f5f89869aea9937e772e823ed60f") (.enterprise MainNet goldenPayment) =
    .ok (asc "84a40081825820fcbc18c64cdf133f33dd319c5105dc7c4972f2d646ae276fbd".toList ++
      asc "00cf7f39f8c38000018282581d61a597e3dc6a2f0b110c31c42abf0965b9705d".toList ++
      asc "d3f291c6091a277b36971a004c4b4082583900d25d4ec5f9e13219b4ea8d5d3c".toList ++
      asc "6c849b2b2efbcc0c301cca492837a5f798d9772e70e1857607d45339c32e415f".toList ++
      asc "05e7250b5df2d06bebba741a0049bf43021a00028bfd031a034b50f7a1008182".toList ++
      asc "5820f623f6c21958349e8d3c2c6c7e03eacddefd085f6b26730d50e203b3c36c".toList ++
      asc "1ea058403e54c3c618143a1b59324e5e79a054f4bece1dec3a26cf574af31521".toList ++
      asc "a2bbd11a72bc17852ff791e196a64ee74f8d8aa90755f5f89869aea9937e772e".toList ++
      asc "823ed60ff5f6".toList) := by
  refine (goldenRun_eq _ _ 166909 (by decide +kernel)).trans ?_
  decide +kernel

end Cardano.TxBuilder
