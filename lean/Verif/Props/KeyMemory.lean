import Verif.Bip32.Memory
import Verif.Props.Keys
/-!
# Properties C83 and C84: keys in memory
-/
set_option autoImplicit false

namespace Cardano.Props
open Go

/-- **C83, what freshness means.** If a function returns a fresh slice `s` (and memory `m'`, called in memory `m`), then every slice `t` the caller had reads as before; nothing
written through `t`, by an assignment or by `append`, is seen in `s`, and nothing written through `s` is seen in `t`. -/
theorem C83_fresh_independent (m m' : Mem) (s : Slice) (h : Fresh m m' s) (t : Slice) (ht : t.arr < m.length) :
    m'.read t = m.read t ∧
    (∀ i f m'', m'.modifyAt t i f = .ok m'' → m''.read s = m'.read s) ∧ (∀ b g, (m'.append t b g).2.read s = m'.read s) ∧
    (∀ i f m'', m'.modifyAt s i f = .ok m'' → m''.read t = m.read t) ∧ (∀ b g, (m'.append s b g).2.read t = m.read t) := by
  have hne : s.arr ≠ t.arr := by have := h.new; omega
  have h0 : m'.read t = m.read t := by
    obtain ⟨n, rfl⟩ := h.grow
    exact Mem.read_grow _ _ _ ht
  have hlt : t.arr < m'.length := by
    obtain ⟨n, rfl⟩ := h.grow
    rw [List.length_append]; omega
  refine ⟨h0, ?_, ?_, ?_, ?_⟩
  · intro i f m'' e
    unfold Mem.modifyAt at e
    split at e
    · injection e with e
      subst e
      exact Mem.read_set_other _ _ _ _ hne
    · cases e
  · intro b g
    unfold Mem.append
    split
    · exact Mem.read_set_other _ _ _ _ hne
    · exact Mem.read_grow _ _ _ h.wf.arr
  · intro i f m'' e
    rw [← h0]
    unfold Mem.modifyAt at e
    split at e
    · injection e with e
      subst e
      exact Mem.read_set_other _ _ _ _ hne.symm
    · cases e
  · intro b g
    rw [← h0]
    unfold Mem.append
    split
    · exact Mem.read_set_other _ _ _ _ hne.symm
    · exact Mem.read_grow _ _ _ hlt

/-- Reads of the pieces of a key. -/
theorem key_pieces (m : Mem) (key : Slice) (hk : key.Wf m) (hl : 64 ≤ key.len) :
    ∃ chain ext kl kr, key.sub 64 key.len = .ok chain ∧ key.sub 0 64 = .ok ext ∧ key.sub 0 32 = .ok kl ∧ key.sub 32 64 = .ok kr ∧
      m.read chain = (m.read key).drop 64 ∧ m.read ext = (m.read key).take 64 ∧ m.read kl = (m.read key).take 32 ∧ m.read kr = ((m.read key).drop 32).take 32 := by
  have hc := hk.len
  have e1 := Mem.sub_ok key 64 key.len hl hc
  have e2 := Mem.sub_ok key 0 64 (by omega) (by omega)
  have e3 := Mem.sub_ok key 0 32 (by omega) (by omega)
  have e4 := Mem.sub_ok key 32 64 (by omega) (by omega)
  have hr := Mem.read_room m key hk
  refine ⟨_, _, _, _, e1, e2, e3, e4, ?_, ?_, ?_, ?_⟩
  · rw [Mem.read_sub m _ _ _ _ e1, hr]
  · rw [Mem.read_sub m _ _ _ _ e2, hr, List.take_take, Nat.min_eq_left hl, List.drop_zero]
  · rw [Mem.read_sub m _ _ _ _ e3, hr, List.take_take, Nat.min_eq_left (by omega), List.drop_zero]
  · rw [Mem.read_sub m _ _ _ _ e4, hr, List.drop_take, List.drop_take, List.take_take, Nat.min_eq_left (by omega)]

open Bip32 in
/-- **C83: `Derive`** returns a fresh key, with the bytes of the value model, for keys of at least 64 bytes, wherever they lie in memory. -/
theorem C83_derive (H : Hashes) (pub : Bytes → Bytes) (m : Mem) (key : Slice) (hk : key.Wf m) (hl : 64 ≤ key.len) (index : UInt32) (spare : Nat) :
    ∃ s m', Heap.Derive H pub m key index spare = .ok (s, m') ∧ Fresh m m' s ∧ Derive H pub (m.read key) index = .ok (m'.read s) := by
  obtain ⟨chain, ext, kl, kr, e1, e2, e3, e4, r1, r2, r3, r4⟩ := key_pieces m key hk hl
  unfold Heap.Derive Heap.XPrvChainCode Heap.extendedPrivateKey Derive
  rw [e1, e2, e3, e4, if_neg (by rw [Mem.read_length m key hk]; omega)]
  simp only [Res.ok_bind]
  rw [r1, r2, r3, r4]
  generalize H.hmac512 _ _ = zout
  generalize H.hmac512 _ _ = iout
  generalize add28mul8 _ _ = left
  generalize add256bits _ _ = right
  generalize iout.drop 32 = c
  have f0 := Fresh.alloc m [] (List.replicate 92 0)
  have g0 := Mem.alloc_read m [] (List.replicate 92 0)
  generalize m.alloc [] (List.replicate 92 0) = p0 at *
  obtain ⟨f1, g1⟩ := Fresh.append m p0.2 p0.1 left spare f0
  generalize p0.2.append p0.1 left spare = p1 at *
  obtain ⟨f2, g2⟩ := Fresh.append m p1.2 p1.1 right spare f1
  generalize p1.2.append p1.1 right spare = p2 at *
  obtain ⟨f3, g3⟩ := Fresh.append m p2.2 p2.1 c spare f2
  generalize p2.2.append p2.1 c spare = p3 at *
  refine ⟨p3.1, p3.2, rfl, f3, ?_⟩
  rw [g3, g2, g1, g0]; rfl

open Bip32 in
/-- **C83: `Public`** returns a fresh extended public key. -/
theorem C83_public (pub : Bytes → Bytes) (m : Mem) (key : Slice) (hk : key.Wf m) (hl : 64 ≤ key.len) (spare : Nat) :
    ∃ s m', Heap.Public pub m key spare = .ok (s, m') ∧ Fresh m m' s ∧ Public pub (m.read key) = .ok (m'.read s) := by
  obtain ⟨chain, ext, kl, kr, e1, e2, -, -, r1, r2, -, -⟩ := key_pieces m key hk hl
  unfold Heap.Public Heap.XPrvChainCode Heap.extendedPrivateKey Public
  rw [e1, e2, if_neg (by rw [Mem.read_length m key hk]; omega)]
  simp only [Res.ok_bind]
  have f0 := Fresh.alloc m [] (List.replicate 64 0)
  have g0 := Mem.alloc_read m [] (List.replicate 64 0)
  generalize m.alloc [] (List.replicate 64 0) = p0 at *
  have old : ∀ (p : Slice × Mem) (t : Slice), Fresh m p.2 p.1 → t.arr < m.length → p.2.read t = m.read t :=
    fun p t h ht => (C83_fresh_independent m p.2 p.1 h t ht).1
  have hext : ext.arr < m.length := (Mem.sub_wf m _ _ _ _ hk e2).arr
  have hch : chain.arr < m.length := (Mem.sub_wf m _ _ _ _ hk e1).arr
  obtain ⟨f1, g1⟩ := Fresh.append m p0.2 p0.1 (pub (p0.2.read ext)) spare f0
  have q1 := old p0 ext f0 hext
  generalize hp1 : p0.2.append p0.1 (pub (p0.2.read ext)) spare = p1 at *
  obtain ⟨f2, g2⟩ := Fresh.append m p1.2 p1.1 (p1.2.read chain) spare f1
  have q2 := old p1 chain f1 hch
  generalize hp2 : p1.2.append p1.1 (p1.2.read chain) spare = p2 at *
  refine ⟨p2.1, p2.2, ?_, f2, ?_⟩
  · rfl
  · rw [g2, g1, g0, q1, q2, r1, r2]; rfl

open Bip32 in
/-- The clamping writes, on a slice whose array is not in `m`. -/
theorem clamp_fresh (m m' : Mem) (s : Slice) (h : Fresh m m' s) (hl : 32 ≤ s.len) (x y z : UInt8 → UInt8) :
    ∃ m1 m2 m3, m'.modifyAt s 0 x = .ok m1 ∧ m1.modifyAt s 31 y = .ok m2 ∧ m2.modifyAt s 31 z = .ok m3 ∧ Fresh m m3 s ∧
      m3.read s = modifyAt (modifyAt (modifyAt (m'.read s) 0 x) 31 y) 31 z := by
  have step : ∀ (n : Mem) (i : Nat) (f : UInt8 → UInt8), i < s.len → ∃ n', n.modifyAt s i f = .ok n' := fun n i f hi => ⟨_, if_pos hi⟩
  obtain ⟨m1, e1⟩ := step m' 0 x (by omega)
  obtain ⟨m2, e2⟩ := step m1 31 y (by omega)
  obtain ⟨m3, e3⟩ := step m2 31 z (by omega)
  obtain ⟨f1, g1⟩ := Fresh.modifyAt m _ _ _ _ _ h e1
  obtain ⟨f2, g2⟩ := Fresh.modifyAt m _ _ _ _ _ f1 e2
  obtain ⟨f3, g3⟩ := Fresh.modifyAt m _ _ _ _ _ f2 e3
  exact ⟨m1, m2, m3, e1, e2, e3, f3, by rw [g3, g2, g1]; rfl⟩

open Bip32 in
/-- **C83: `FromBip39Entropy`** returns a fresh key and leaves entropy and password alone. -/
theorem C83_entropy (H : Hashes) (hH : H.Ok) (rest : Bytes → Bytes → Bytes) (m : Mem) (entropy password : Slice) :
    ∃ s m', Heap.FromBip39Entropy H rest m entropy password = .ok (s, m') ∧ Fresh m m' s ∧
      FromBip39Entropy H (m.read entropy) (m.read password) = .ok (m'.read s) := by
  unfold Heap.FromBip39Entropy FromBip39Entropy
  have hl := hH.pbkdf2 (m.read password) (m.read entropy)
  generalize H.pbkdf2 (m.read password) (m.read entropy) = k at *
  generalize rest (m.read password) (m.read entropy) = r
  have f0 := Fresh.alloc m k r
  have g0 := Mem.alloc_read m k r
  have l0 : (m.alloc k r).1.len = 96 := hl
  generalize m.alloc k r = p at *
  obtain ⟨m1, m2, m3, e1, e2, e3, f3, g3⟩ := clamp_fresh m p.2 p.1 f0 (by omega) (· &&& 0xf8) (· &&& 0x1f) (· ||| 0x40)
  refine ⟨p.1, m3, ?_, f3, ?_⟩
  · show Heap.NormalizeBytesForce3rd p.2 p.1 = _
    unfold Heap.NormalizeBytesForce3rd
    rw [e1]; simp only [Res.ok_bind]
    rw [e2]; simp only [Res.ok_bind]
    rw [e3]; rfl
  · unfold NormalizeBytesForce3rd
    rw [if_neg (by omega), g3, g0]

open Bip32 in
/-- **C83: `NewXPrv`** returns a fresh key and leaves the seed alone. -/
theorem C83_newXPrv (H : Hashes) (hH : H.Ok) (m : Mem) (seed : Slice) (hs : seed.Wf m) (hl : seed.len = 32) (spare : Nat) :
    ∃ s m', Heap.NewXPrv H m seed spare = .ok (s, m') ∧ Fresh m m' s ∧ NewXPrv H (m.read seed) = .ok (m'.read s) := by
  unfold Heap.NewXPrv NewXPrv
  rw [if_neg (by omega), if_neg (by rw [Mem.read_length m seed hs]; omega)]
  have hk := hH.sha512 (m.read seed)
  generalize hkk : H.sha512 (m.read seed) = k at *
  have f0 := Fresh.alloc m k []
  have g0 := Mem.alloc_read m k []
  have l0 : (m.alloc k []).1.len = 64 := hk
  generalize m.alloc k [] = p at *
  obtain ⟨m1, m2, m3, e1, e2, e3, f3, g3⟩ := clamp_fresh m p.2 p.1 f0 (by omega) (· &&& 0xf8) (· &&& 0x5f) (· ||| 0x40)
  have hsd := (C83_fresh_independent m m3 p.1 f3 seed hs.arr).1
  obtain ⟨f4, g4⟩ := Fresh.append m m3 p.1 (H.sha256 (0x01 :: m3.read seed)) spare f3
  refine ⟨_, _, ?_, f4, ?_⟩
  · simp only []
    rw [e1]; simp only [Res.ok_bind]
    rw [e2]; simp only [Res.ok_bind]
    rw [e3]; rfl
  · rw [g4, g3, g0, hsd]

open Bip32 in
/-- **C83: a derivation path** in memory gives a key with the bytes of the value model; if the path is not empty the key is fresh. All keys on the way stay as they are. -/
theorem C83_path (H : Hashes) (hH : H.Ok) (pub : Bytes → Bytes) (m : Mem) (key : Slice) (hk : key.Wf m) (hl : key.len = 96) (path : List (UInt32 × Nat)) :
    ∃ s m', Heap.derivePath H pub m key path = .ok (s, m') ∧ s.Wf m' ∧ (∃ new, m' = m ++ new) ∧ (path ≠ [] → Fresh m m' s) ∧
      derivePath H pub (m.read key) (path.map (·.1)) = .ok (m'.read s) := by
  induction path generalizing m key with
  | nil => exact ⟨key, m, rfl, hk, ⟨[], (List.append_nil _).symm⟩, fun h => absurd rfl h, rfl⟩
  | cons a path ih =>
    obtain ⟨i, spare⟩ := a
    obtain ⟨s1, m1, e1, f1, v1⟩ := C83_derive H pub m key hk (by omega) i spare
    have hlen : s1.len = 96 := by
      rw [← Mem.read_length m1 s1 f1.wf]
      obtain ⟨child, hc, hc', -⟩ := C33_derive H hH pub (m.read key) (by rw [Mem.read_length m key hk]; exact hl) i
      rw [hc] at v1
      injection v1 with v1
      rw [← v1]; exact hc'
    obtain ⟨s2, m2, e2, w2, g2, f2, v2⟩ := ih m1 s1 f1.wf hlen
    refine ⟨s2, m2, ?_, w2, ?_, ?_, ?_⟩
    · unfold Heap.derivePath
      rw [e1]; exact e2
    · obtain ⟨n1, h1⟩ := f1.grow
      obtain ⟨n2, h2⟩ := g2
      exact ⟨n1 ++ n2, by rw [h2, h1, List.append_assoc]⟩
    · intro _
      cases path with
      | nil =>
        injection e2 with e2
        injection e2 with ea eb
        subst ea eb
        exact f1
      | cons b path => exact Fresh.trans m m1 m2 s2 f1.grow (f2 (by simp))
    · rw [List.map_cons, derivePath, v1]; exact v2

open Bip32 in
/-- **C83: `Sign`** changes nothing. -/
theorem C83_sign (H : Hashes) (m : Mem) (key msg : Slice) (hk : key.Wf m) (hl : 64 ≤ key.len) :
    ∃ sig, Heap.Sign H m key msg = .ok (sig, m) ∧ Sign H (m.read key) (m.read msg) = .ok sig := by
  obtain ⟨chain, ext, kl, kr, -, -, e3, e4, -, -, r3, r4⟩ := key_pieces m key hk hl
  unfold Heap.Sign Sign
  rw [e3, e4, if_neg (by rw [Mem.read_length m key hk]; omega)]
  simp only [Res.ok_bind]
  rw [r3, r4]
  have : makePublicKey ((m.read key).take 32) = makePublicKey (m.read key) := by
    unfold makePublicKey; rw [List.take_take, Nat.min_self]
  rw [this]
  exact ⟨_, rfl, rfl⟩

open Bip32 in
/-- **C84 is false for `NormalizeBytesForce3rd`**: the returned key is the argument itself, and the bytes of the argument are changed to those of the key. -/
theorem C84_normalize_overwrites (m : Mem) (b : Slice) (hb : b.Wf m) (hl : 32 ≤ b.len) :
    ∃ m', Heap.NormalizeBytesForce3rd m b = .ok (b, m') ∧ NormalizeBytesForce3rd (m.read b) = .ok (m'.read b) ∧
      ∀ t : Slice, t.arr ≠ b.arr → m'.read t = m.read t := by
  obtain ⟨m1, m2, m3, e1, e2, e3, f3, g3⟩ := clamp_fresh [] m b ⟨⟨m, rfl⟩, Nat.zero_le _, hb⟩ hl (· &&& 0xf8) (· &&& 0x1f) (· ||| 0x40)
  have other : ∀ (n n' : Mem) (i : Nat) (f : UInt8 → UInt8) (t : Slice), t.arr ≠ b.arr → n.modifyAt b i f = .ok n' → n'.read t = n.read t := by
    intro n n' i f t ht e
    unfold Mem.modifyAt at e
    split at e
    · injection e with e
      subst e
      exact Mem.read_set_other _ _ _ _ ht
    · cases e
  refine ⟨m3, ?_, ?_, ?_⟩
  · unfold Heap.NormalizeBytesForce3rd
    rw [e1]; simp only [Res.ok_bind]
    rw [e2]; simp only [Res.ok_bind]
    rw [e3]; rfl
  · unfold NormalizeBytesForce3rd
    rw [if_neg (by rw [Mem.read_length m b hb]; omega), g3]
  · intro t ht
    rw [other _ _ _ _ t ht e3, other _ _ _ _ t ht e2, other _ _ _ _ t ht e1]

open Bip32 in
/-- The extended public key made by `Public` from a key of 96 bytes fills its array. -/
theorem public_shape (pub : Bytes → Bytes) (hp : ∀ k, (pub k).length = 32) (m : Mem) (key : Slice) (hk : key.Wf m) (hl : key.len = 96) (spare : Nat) :
    ∃ m', Heap.Public pub m key spare = .ok (⟨m.length, 0, 64, 64⟩, m') ∧ Fresh m m' ⟨m.length, 0, 64, 64⟩ ∧
      m'.read ⟨m.length, 0, 64, 64⟩ = pub ((m.read key).take 64) ++ (m.read key).drop 64 := by
  obtain ⟨s, m', e, f, v⟩ := C83_public pub m key hk (by omega) spare
  have hs : s = ⟨m.length, 0, 64, 64⟩ := by
    obtain ⟨chain, ext, kl, kr, e1, e2, -, -, r1, r2, -, -⟩ := key_pieces m key hk (by omega)
    unfold Heap.Public Heap.XPrvChainCode Heap.extendedPrivateKey at e
    rw [e1, e2] at e
    simp only [Res.ok_bind, Mem.alloc, List.length_nil, List.length_replicate] at e
    have hch : chain.len = 32 := by
      unfold Slice.sub at e1
      split at e1
      · injection e1 with e1
        rw [← e1]; show key.len - 64 = 32; omega
      · cases e1
    have hle : ∀ n : Mem, (n.read chain).length ≤ 32 := by
      intro n
      unfold Mem.read
      rw [List.length_take, hch]; omega
    have hlen : s.len = 64 := by
      have h1 := Mem.read_length m' s f.wf
      unfold Public at v
      rw [if_neg (by rw [Mem.read_length m key hk]; omega)] at v
      injection v with v
      rw [← h1, ← v, List.length_append, hp, List.length_drop, Mem.read_length m key hk]; omega
    unfold Mem.append at e
    simp only [hp, Nat.zero_add, Nat.reduceLeDiff, if_true] at e
    rw [if_pos (by have := hle ((m ++ [[] ++ List.replicate 64 0]).write m.length 0 (pub ((m ++ [[] ++ List.replicate 64 0]).read ext))); omega)] at e
    injection e with e
    have es := congrArg Prod.fst e
    have es : _ = s := es
    rw [← es] at hlen ⊢
    simp only at hlen ⊢
    rw [hlen]
  subst hs
  refine ⟨m', e, f, ?_⟩
  unfold Public at v
  rw [if_neg (by rw [Mem.read_length m key hk]; omega)] at v
  injection v with v
  exact v.symm

open Bip32 in
/-- **C84 is false for `PublicKey`**: appending to the public key of an extended public key made by `Public` overwrites its chain code. -/
theorem C84_append_overwrites_chain_code (pub : Bytes → Bytes) (hp : ∀ k, (pub k).length = 32) (m : Mem) (key : Slice) (hk : key.Wf m) (hl : key.len = 96) (spare g : Nat)
    (x : Bytes) (hx : x.length ≤ 32) :
    ∃ s m' pk, Heap.Public pub m key spare = .ok (s, m') ∧ Heap.PublicKey s = .ok pk ∧ m'.read s = pub ((m.read key).take 64) ++ (m.read key).drop 64 ∧
      (m'.append pk x g).2.read s = pub ((m.read key).take 64) ++ x ++ ((m.read key).drop 64).drop x.length := by
  obtain ⟨m', e, f, v⟩ := public_shape pub hp m key hk hl spare
  refine ⟨_, m', ⟨m.length, 0, 32, 64⟩, e, rfl, v, ?_⟩
  unfold Mem.append
  rw [if_pos (by show 32 + x.length ≤ 64; omega)]
  have ha := Mem.array_set m' m.length m.length (Mem.splice (m'.array m.length) (0 + 32) x) f.wf.arr
  rw [if_pos rfl] at ha
  have v' : ((m'.array m.length).drop 0).take 64 = pub ((m.read key).take 64) ++ (m.read key).drop 64 := v
  have hc := f.wf.cap
  have hc : 0 + 64 ≤ (m'.array m.length).length := hc
  show ((Mem.array (m'.set m.length (Mem.splice (m'.array m.length) (0 + 32) x)) m.length).drop 0).take 64 = _
  rw [ha]
  generalize m'.array m.length = a at *
  generalize (m.read key).drop 64 = c at *
  have hpl := hp ((m.read key).take 64)
  generalize pub ((m.read key).take 64) = q at *
  rw [List.drop_zero] at v' ⊢
  have hc' : a.take 32 = q := by
    have := congrArg (List.take 32) v'
    rw [List.take_take, List.take_append_of_le_length (by omega), List.take_of_length_le (by omega : q.length ≤ 32)] at this
    exact this
  have hd : (a.drop 32).take 32 = c := by
    have := congrArg (List.drop 32) v'
    rw [List.drop_take, List.drop_append_of_le_length (by omega), List.drop_of_length_le (by omega : q.length ≤ 32)] at this
    exact this
  unfold Mem.splice
  rw [Nat.zero_add, hc', ← hd, List.take_append, List.take_of_length_le (by rw [List.length_append]; omega), ← List.drop_drop, List.length_append, List.drop_take]
  congr 2
  omega

open Bip32 in
/-- **C84, what the accessors return**: the bytes of the value model, in the array of their argument (so that writing to the one changes the other). -/
theorem C84_accessors (m : Mem) (x : Slice) (hx : x.Wf m) :
    (32 ≤ x.len → ∃ pk c, Heap.PublicKey x = .ok pk ∧ Heap.ChainCode x = .ok c ∧ pk.arr = x.arr ∧ c.arr = x.arr ∧
      PublicKey (m.read x) = .ok (m.read pk) ∧ ChainCode (m.read x) = .ok (m.read c)) ∧
    (64 ≤ x.len → ∃ c, Heap.XPrvChainCode x = .ok c ∧ c.arr = x.arr ∧ XPrvChainCode (m.read x) = .ok (m.read c)) := by
  have hc := hx.len
  have hr := Mem.read_room m x hx
  have hl := Mem.read_length m x hx
  constructor
  · intro h
    have e1 := Mem.sub_ok x 0 32 (by omega) (by omega)
    have e2 := Mem.sub_ok x 32 x.len (by omega) hc
    refine ⟨_, _, e1, e2, rfl, rfl, ?_, ?_⟩
    · unfold PublicKey
      rw [if_neg (by omega), Mem.read_sub m _ _ _ _ e1, hr, List.take_take, Nat.min_eq_left h, List.drop_zero]
    · unfold ChainCode
      rw [if_neg (by omega), Mem.read_sub m _ _ _ _ e2, hr]
  · intro h
    have e1 := Mem.sub_ok x 64 x.len (by omega) hc
    refine ⟨_, e1, rfl, ?_⟩
    unfold XPrvChainCode
    rw [if_neg (by omega), Mem.read_sub m _ _ _ _ e1, hr]

/-! ### Concrete cases -/

/-- A memory with a key of 96 bytes in the middle of an array, and a seed. -/
def exMem : Mem := [List.replicate 10 1 ++ List.replicate 96 0x58 ++ List.replicate 20 9, List.replicate 32 7]

/-- The key. -/
def exKey : Slice := ⟨0, 10, 96, 110⟩

/-- The hypotheses of `C83_derive`, `C83_public`, `C83_path`, `C83_sign`, `C84_normalize_overwrites` and `C84_append_overwrites_chain_code` on memory are met. -/
example : exKey.Wf exMem ∧ exKey.len = 96 ∧ exMem.read exKey = List.replicate 96 0x58 := ⟨⟨by decide +kernel, by decide +kernel, by decide +kernel⟩, rfl, by decide +kernel⟩

/-- So are those of `C83_newXPrv`. -/
example : (⟨1, 0, 32, 32⟩ : Slice).Wf exMem := ⟨by decide +kernel, by decide +kernel, by decide +kernel⟩

/-- And that of `C83_fresh_independent`, with two slices of the caller. -/
example : Fresh exMem (exMem ++ [List.replicate 96 3]) ⟨2, 0, 96, 96⟩ ∧ exKey.arr < exMem.length := ⟨⟨⟨_, rfl⟩, by decide +kernel, by decide +kernel, by decide +kernel, by decide +kernel⟩, by decide +kernel⟩

/-- Appending one byte to the public key changes the first byte of the chain code. -/
example : ∃ s m' pk, Bip32.Heap.Public (fun _ => List.replicate 32 5) exMem exKey 0 = .ok (s, m') ∧ Bip32.Heap.PublicKey s = .ok pk ∧
    m'.read s = List.replicate 32 5 ++ List.replicate 32 0x58 ∧ (m'.append pk [0xff] 0).2.read s = List.replicate 32 5 ++ 0xff :: List.replicate 31 0x58 := by
  obtain ⟨s, m', pk, e1, e2, e3, e4⟩ := C84_append_overwrites_chain_code (fun _ => List.replicate 32 5) (fun _ => rfl) exMem exKey ⟨by decide +kernel, by decide +kernel, by decide +kernel⟩ rfl 0 0 [0xff] (by decide +kernel)
  refine ⟨s, m', pk, e1, e2, e3.trans ?_, e4.trans ?_⟩ <;> decide +kernel

end Cardano.Props
