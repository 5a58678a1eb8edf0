import Verif.Address.Parse
/-!
# Memory sharing between a parsed address and the caller's buffer (C49)

`readAddrCred` does not copy: the credential payload is a window into the caller's slice. This model makes the sharing
visible. A payload is either a window (offset into the caller's backing array, length) or bytes owned by the address.
-/
set_option autoImplicit false

namespace Cardano.Addr

/-- Where the bytes of a slice live. -/
inductive Mem where
  | window (off len : Nat)
  | owned (b : Bytes)
  deriving DecidableEq

/-- Contents of a slice when the caller's backing array holds `buf`. -/
def Mem.read (buf : Bytes) : Mem → Bytes
  | .window off len => (buf.drop off).take len
  | .owned b => b

/-- A credential with its payload in memory. -/
structure CredM where
  kind : UInt8
  payload : Mem
  deriving DecidableEq

/-- What `NewAddressFromBytes` returns: structures whose payload slices may point into the caller's array. -/
inductive AddressM where
  | base (net : NetworkInfo) (payment stake : CredM)
  | enterprise (net : NetworkInfo) (payment : CredM)
  | pointer (net : NetworkInfo) (payment : CredM) (stake : StakePointer)
  | reward (net : NetworkInfo) (stake : CredM)
  | byron (b : ByronAddress)

def CredM.read (buf : Bytes) (c : CredM) : Cred := ⟨c.kind, c.payload.read buf⟩

/-- The address as observed when the caller's array holds `buf`. Byron addresses own their bytes: the CBOR decoder
copies byte strings. -/
def AddressM.read (buf : Bytes) : AddressM → Address
  | .base n p s => .base n (p.read buf) (s.read buf)
  | .enterprise n p => .enterprise n (p.read buf)
  | .pointer n p s => .pointer n (p.read buf) s
  | .reward n s => .reward n (s.read buf)
  | .byron b => .byron b

/-- address.go:155-166 `readAddrCred`: `hashBytes := data[pos : pos+28]` shares memory with `data`. -/
def readAddrCredM (data spare : Bytes) (header : UInt8) (bit : Nat) (pos : Nat) : Res CredM :=
  if pos + 28 > data.length + spare.length then .panic
  else if header &&& goShl8 1 bit = 0 then .ok ⟨0, .window pos 28⟩ else .ok ⟨1, .window pos 28⟩

/-- address.go:57-153 `NewAddressFromBytes`, with memory. -/
def NewAddressFromBytesM (strict : Bool) (data spare : Bytes) : Res AddressM :=
  match data with
  | [] => .panic
  | header :: _ =>
    let netId := header &&& 0x0F
    let ty := (header &&& 0xF0) >>> 4
    if ty = 8 then do
      let b ← Byron.unmarshal strict data
      return .byron b
    else if ty = 0 ∨ ty = 1 ∨ ty = 2 ∨ ty = 3 then do
      let payment ← readAddrCredM data spare header 4 1
      let stake ← readAddrCredM data spare header 5 (1 + 28)
      return .base (networks netId) payment stake
    else if ty = 4 ∨ ty = 5 then
      if data.length < 1 + 28 + 1 + 1 + 1 then .err "cbor not enough error"
      else do
        let paymentCred ← readAddrCredM data spare header 4 1
        let (slot, slotBytes) ← VariableNatDecode (data.drop 29)
        let (txIndex, txBytes) ← VariableNatDecode (data.drop (29 + slotBytes))
        let (certIndex, certBytes) ← VariableNatDecode (data.drop (29 + slotBytes + txBytes))
        if 29 + slotBytes + txBytes + certBytes < data.length then .err "cbor trailing data error"
        else return .pointer (networks netId) paymentCred ⟨slot, txIndex, certIndex⟩
    else if ty = 6 ∨ ty = 7 then
      if data.length < 29 then .err "cbor not enough error"
      else if data.length > 29 then .err "cbor trailing data error"
      else do
        let payment ← readAddrCredM data spare header 4 1
        return .enterprise (networks netId) payment
    else if ty = 14 ∨ ty = 15 then
      if data.length < 29 then .err "cbor not enough error"
      else if data.length > 29 then .err "cbor trailing data error"
      else do
        let stake ← readAddrCredM data spare header 4 1
        return .reward (networks netId) stake
    else .err "invalid/unsupported address type"

/-- `Res` mapped through a function. -/
def mapRes {α β : Type} (f : α → β) : Res α → Res β
  | .ok a => .ok (f a)
  | .err m => .err m
  | .panic => .panic

theorem readCredM_read (data spare : Bytes) (h : UInt8) (bit pos : Nat) :
    mapRes (CredM.read (data ++ spare)) (readAddrCredM data spare h bit pos) = readAddrCred data spare h bit pos := by
  unfold readAddrCredM readAddrCred
  split
  · rfl
  · simp only []
    split <;> rfl

theorem mapRes_bind {α β γ δ : Type} (g : γ → δ) (f : α → β) (x : Res α) (k : α → Res γ) (k' : β → Res δ)
    (hk : ∀ a, mapRes g (k a) = k' (f a)) : mapRes g (x >>= k) = (mapRes f x >>= k') := by
  cases x with
  | ok a => exact hk a
  | err m => rfl
  | panic => rfl

theorem mapRes_bind' {α γ δ : Type} (g : γ → δ) (x : Res α) (k : α → Res γ) (k' : α → Res δ)
    (hk : ∀ a, mapRes g (k a) = k' a) : mapRes g (x >>= k) = (x >>= k') := by
  cases x with
  | ok a => exact hk a
  | err m => rfl
  | panic => rfl

/-- Looked at right after it returns, the memory model is the value model. -/
theorem parseM_read (strict : Bool) (data spare : Bytes) :
    mapRes (AddressM.read (data ++ spare)) (NewAddressFromBytesM strict data spare) = NewAddressFromBytes strict data spare := by
  cases data with
  | nil => rfl
  | cons h t =>
    unfold NewAddressFromBytesM NewAddressFromBytes
    simp only []
    split
    · exact mapRes_bind' _ _ _ _ (fun a => rfl)
    split
    · rw [← readCredM_read, ← readCredM_read]
      exact mapRes_bind _ _ _ _ _ (fun a => mapRes_bind _ _ _ _ _ (fun b => rfl))
    split
    · split
      · rfl
      rw [← readCredM_read]
      refine mapRes_bind _ _ _ _ _ (fun a => mapRes_bind' _ _ _ _ (fun x => ?_))
      obtain ⟨x1, x2⟩ := x
      refine mapRes_bind' _ _ _ _ (fun y => ?_)
      obtain ⟨y1, y2⟩ := y
      refine mapRes_bind' _ _ _ _ (fun z => ?_)
      obtain ⟨z1, z2⟩ := z
      simp only []
      split <;> rfl
    split
    · split
      · rfl
      split
      · rfl
      rw [← readCredM_read]
      exact mapRes_bind _ _ _ _ _ (fun a => rfl)
    split
    · split
      · rfl
      split
      · rfl
      rw [← readCredM_read]
      exact mapRes_bind _ _ _ _ _ (fun a => rfl)
    · rfl

end Cardano.Addr
