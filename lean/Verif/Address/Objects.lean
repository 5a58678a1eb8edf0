import Verif.Address.Alias
import Verif.Go.Memory
/-!
# Addresses, credentials and networks as objects in memory

The constructors of the package take pointers and slices, the conversions and `NetworkInfo` give pointers. In this model every
`NetworkInfo`, `StakeCredential` and address is an object, payloads are slices of byte arrays, and a program may write
to whatever it can reach.
-/
set_option autoImplicit false

namespace Cardano.Addr.Obj
open Go

/-- stake_credential.go:10-13 `StakeCredential`, with the slice. -/
structure CredO where
  kind : UInt8
  payload : Slice

/-- base.go:12-16, enterprise.go:11-14, pointer.go:19-23, reward.go:11-14, byron.go:22-26: the structures hold networks and credentials, not pointers to them.
(Simplified: a Byron address is one value; its slices come from the decoder, which copies.) -/
inductive AddrO where
  | base (net : NetworkInfo) (payment stake : CredO)
  | enterprise (net : NetworkInfo) (payment : CredO)
  | pointer (net : NetworkInfo) (payment : CredO) (stake : StakePointer)
  | reward (net : NetworkInfo) (stake : CredO)
  | byron (b : ByronAddress)

/-- The objects of a process. -/
structure Heap where
  arrays : Go.Mem
  nets : List NetworkInfo
  creds : List CredO
  addrs : List AddrO

/-- `*NetworkInfo`: to a variable, or to the field of an address. -/
inductive NetPtr where
  | var (i : Nat)
  | field (a : Nat)

/-- `*StakeCredential`: to a variable, or to a field of an address. -/
inductive CredPtr where
  | var (i : Nat)
  | payment (a : Nat)
  | stake (a : Nat)

/-- The field `Network`. -/
def AddrO.net : AddrO → Option NetworkInfo
  | .base n _ _ | .enterprise n _ | .pointer n _ _ | .reward n _ => some n
  | .byron _ => none

/-- The field `Payment`. -/
def AddrO.payment : AddrO → Option CredO
  | .base _ p _ | .enterprise _ p | .pointer _ p _ => some p
  | _ => none

/-- The field `Stake`, where it is a credential. -/
def AddrO.stake : AddrO → Option CredO
  | .base _ _ s | .reward _ s => some s
  | _ => none

/-- `a.Network = n` -/
def AddrO.setNet (n : NetworkInfo) : AddrO → AddrO
  | .base _ p s => .base n p s
  | .enterprise _ p => .enterprise n p
  | .pointer _ p s => .pointer n p s
  | .reward _ s => .reward n s
  | .byron b => .byron b

/-- `a.Payment = c` -/
def AddrO.setPayment (c : CredO) : AddrO → AddrO
  | .base n _ s => .base n c s
  | .enterprise n _ => .enterprise n c
  | .pointer n _ s => .pointer n c s
  | a => a

/-- `a.Stake = c` -/
def AddrO.setStake (c : CredO) : AddrO → AddrO
  | .base n p _ => .base n p c
  | .reward n _ => .reward n c
  | a => a

/-- `*p` -/
def Heap.netAt (h : Heap) : NetPtr → Option NetworkInfo
  | .var i => h.nets[i]?
  | .field a => h.addrs[a]?.bind AddrO.net

/-- `*p` -/
def Heap.credAt (h : Heap) : CredPtr → Option CredO
  | .var i => h.creds[i]?
  | .payment a => h.addrs[a]?.bind AddrO.payment
  | .stake a => h.addrs[a]?.bind AddrO.stake

/-- The contents of a credential. -/
def CredO.value (m : Go.Mem) (c : CredO) : Cred := ⟨c.kind, m.read c.payload⟩

/-- The address that an object holds at the moment. -/
def AddrO.value (m : Go.Mem) : AddrO → Address
  | .base n p s => .base n (p.value m) (s.value m)
  | .enterprise n p => .enterprise n (p.value m)
  | .pointer n p s => .pointer n (p.value m) s
  | .reward n s => .reward n (s.value m)
  | .byron b => .byron b

/-- The address that object `a` holds at the moment. -/
def Heap.address (h : Heap) (a : Nat) : Option Address := h.addrs[a]?.map (AddrO.value h.arrays)

/-- address.go:155-166: a window of the slice that is parsed. -/
def slotOf (s : Slice) : Addr.Mem → Slice
  | .window off len => ⟨s.arr, s.off + off, len, s.cap - off⟩
  | .owned _ => ⟨s.arr, s.off, 0, 0⟩

/-- What `NewAddressFromBytes` makes (address.go:57-153), with its slices in the array of the argument. -/
def placed (s : Slice) : AddressM → AddrO
  | .base n p q => .base n ⟨p.kind, slotOf s p.payload⟩ ⟨q.kind, slotOf s q.payload⟩
  | .enterprise n p => .enterprise n ⟨p.kind, slotOf s p.payload⟩
  | .pointer n p sp => .pointer n ⟨p.kind, slotOf s p.payload⟩ sp
  | .reward n q => .reward n ⟨q.kind, slotOf s q.payload⟩
  | .byron b => .byron b

/-- What a program does with the package, and the assignments it can make itself. -/
inductive Act where
  | make (b : Bytes)
  | network (n : NetworkInfo)
  | testNet | mainNet
  | keyCred (s : Slice) | scriptCred (s : Slice)
  | newBase (n : NetPtr) (p s : CredPtr)
  | newEnterprise (n : NetPtr) (p : CredPtr)
  | newReward (n : NetPtr) (s : CredPtr)
  | newPointer (n : NetPtr) (p : CredPtr) (s : StakePointer)
  | toEnterprise (a : Nat) | toReward (a : Nat)
  | parse (strict : Bool) (s : Slice)
  | bytes (a : Nat) | string (a : Nat) | networkInfo (a : Nat) | pfx (a : Nat)
  | setByte (s : Slice) (i : Nat) (v : UInt8)
  | setNet (p : NetPtr) (n : NetworkInfo)
  | setCred (p : CredPtr) (c : CredO)
  | setPointer (a : Nat) (s : StakePointer)
  | setByron (a : Nat) (b : ByronAddress)

/-- A new address, if its parts are there. -/
def Heap.push (h : Heap) (a : Option AddrO) : Heap := match a with
  | some a => { h with addrs := h.addrs ++ [a] }
  | none => h

/-- The memory after one action. (A nil or dangling pointer panics in Go; here nothing happens.) -/
def step (h : Heap) : Act → Heap
  /- `[]byte{...}` -/
  | .make b => { h with arrays := h.arrays ++ [b] }
  /- `&NetworkInfo{...}` -/
  | .network n => { h with nets := h.nets ++ [n] }
  /- network.go:8-13 and 15-20: a new object for each call -/
  | .testNet => { h with nets := h.nets ++ [TestNet] }
  | .mainNet => { h with nets := h.nets ++ [MainNet] }
  /- stake_credential.go:15-20 and 22-27: the slice is kept -/
  | .keyCred s => { h with creds := h.creds ++ [⟨0, s⟩] }
  | .scriptCred s => { h with creds := h.creds ++ [⟨1, s⟩] }
  /- base.go:71-77: `Network: *network, Payment: *payment, Stake: *stake` -/
  | .newBase n p s => h.push (do return .base (← h.netAt n) (← h.credAt p) (← h.credAt s))
  /- enterprise.go:49-54 -/
  | .newEnterprise n p => h.push (do return .enterprise (← h.netAt n) (← h.credAt p))
  /- reward.go:50-55 -/
  | .newReward n s => h.push (do return .reward (← h.netAt n) (← h.credAt s))
  /- pointer.go:106-112 -/
  | .newPointer n p s => h.push (do return .pointer (← h.netAt n) (← h.credAt p) s)
  /- base.go:53-59 and 62-68: the constructors get `&b.Network`, `&b.Payment`, `&b.Stake` -/
  | .toEnterprise a => match h.addrs[a]? with
    | some (.base n p _) => h.push (some (.enterprise n p))
    | _ => h
  | .toReward a => match h.addrs[a]? with
    | some (.base n _ s) => h.push (some (.reward n s))
    | _ => h
  /- address.go:57-166 -/
  | .parse strict s => match NewAddressFromBytesM strict (h.arrays.read s) ((h.arrays.room s).drop s.len) with
    | .ok a => h.push (some (placed s a))
    | _ => h
  /- base.go:19-25, enterprise.go:17-22, reward.go:17-22, pointer.go:65-76: a new slice; byron.go:29-32 -/
  | .bytes a => match h.address a with
    | some x => { h with arrays := h.arrays ++ [Addr.bytes x] }
    | none => h
  /- base.go:28-31 and 40-45 and the others: strings, which nobody can write -/
  | .string _ => h
  | .pfx _ => h
  /- base.go:35-37, enterprise.go:31-33, reward.go:37-39, pointer.go:92-94: the address of the field; byron.go:40-45: a new object -/
  | .networkInfo a => match h.addrs[a]? with
    | some (.byron b) => { h with nets := h.nets ++ [Addr.networkInfo (.byron b)] }
    | _ => h
  | .setByte s i v => match h.arrays.modifyAt s i (fun _ => v) with
    | .ok m => { h with arrays := m }
    | _ => h
  | .setNet (.var i) n => { h with nets := h.nets.set i n }
  | .setNet (.field a) n => { h with addrs := h.addrs.modify a (AddrO.setNet n) }
  | .setCred (.var i) c => { h with creds := h.creds.set i c }
  | .setCred (.payment a) c => { h with addrs := h.addrs.modify a (AddrO.setPayment c) }
  | .setCred (.stake a) c => { h with addrs := h.addrs.modify a (AddrO.setStake c) }
  | .setPointer a s => { h with addrs := h.addrs.modify a fun x => match x with
    | .pointer n p _ => .pointer n p s
    | x => x }
  | .setByron a b => { h with addrs := h.addrs.modify a fun x => match x with
    | .byron _ => .byron b
    | x => x }

/-- One action after the other. -/
def run (h : Heap) (l : List Act) : Heap := l.foldl step h

end Cardano.Addr.Obj
