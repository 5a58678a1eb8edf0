import Verif.Tx.Threads
/-!
# Property C116: builders in several goroutines
-/
set_option autoImplicit false

namespace Cardano.Props
open TxThreads Transaction TxBuilder

/-! ## What a goroutine should see: the builder of `Tx/Model.lean`, with the values of the shared objects -/

/-- An input by value. -/
def inputIn (m : Shared) : Ref TxInput → TxInput
  | .shared p => ⟨m (.inHash p), m (.inIndex p), m (.inAmount p)⟩
  | .own i => i

/-- An output by value. -/
def outputIn (m : Shared) : Ref TxOutput → TxOutput
  | .shared p => ⟨m (.outAddress p), m (.outAmount p)⟩
  | .own o => o

/-- Keys by value. -/
def keysIn (m : Shared) : Keys → List Bytes
  | .slice a n _ => (List.range n).map fun i => m (.key a i)
  | .own l => l

/-- The call with values in place of pointers. -/
def callIn (m : Shared) : Call → Op
  | .addInputs l => .addInputs (l.map (inputIn m))
  | .addOutputs l => .addOutputs (l.map (outputIn m))
  | .setTTL n => .setTTL n
  | .sign k => .sign k
  | .minFee => .minFee
  | .addChange a => .addChange a
  | .build => .build
  | .setMetadata x => .setMetadata x
  | .bytesOf h => .bytesOf h

/-- What the call returns for a builder alone. -/
def answerOf (C : Crypto) (b : Builder) : Call → Answer
  | .minFee => .fee (MinFee C b).1
  | .build => .built (Build C b).1
  | .bytesOf h => .bytes (TxBuilder.bytesOf C b h).1
  | _ => .nothing

/-- What a goroutine gets if it is alone: answers, and its builders at the end. -/
def aloneIn (C : Crypto) (m : Shared) : Client → List Builder → List Answer × List Builder
  | .done, bs => ([], bs)
  | .new p ks next, bs => aloneIn C m next (bs ++ [NewTxBuilder p (keysIn m ks)])
  | .call i c next, bs =>
    match bs[i]? with
    | none => aloneIn C m (next .nothing) bs
    | some b =>
      let (l, bs) := aloneIn C m (next (answerOf C b c)) (bs.set i (TxBuilder.step C b (callIn m c)))
      (answerOf C b c :: l, bs)

/-- The builder as `Tx/Model.lean` has it. -/
def seenIn (m : Shared) (b : TBuilder) : Builder :=
  ⟨⟨b.inputs.map (inputIn m), b.outputs.map (outputIn m), b.fee, b.ttl, b.auxHash⟩, b.wits, b.wit, b.valid, b.metadata, keysIn m b.keys, b.protocol, b.clock⟩

/-! ## Programs without writes -/

/-- The program writes nothing, and its result has the property, whatever it reads. -/
def Post {α : Type} (Q : α → Prop) : Prog α → Prop
  | .ret a => Q a
  | .read _ k => ∀ v, Post Q (k v)
  | .write _ _ _ => False

/-- The program writes nothing. -/
def Reads {α : Type} (p : Prog α) : Prop := Post (fun _ => True) p

theorem run_bind {α β : Type} (p : Prog α) (g : α → Prog β) (m : Shared) : (p >>= g).run m = (g (p.run m).1).run (p.run m).2 := by
  show (p.bind g).run m = _
  induction p generalizing m with
  | ret a => rfl
  | read l k ih => exact ih _ _
  | write l v k ih => exact ih _

theorem post_bind {α β : Type} {Q : α → Prop} {R : β → Prop} {p : Prog α} {g : α → Prog β} (hp : Post Q p) (hg : ∀ a, Q a → Post R (g a)) : Post R (p >>= g) := by
  show Post R (p.bind g)
  induction p with
  | ret a => exact hg a hp
  | read l k ih => exact fun v => ih v (hp v)
  | write l v k _ => exact hp

theorem reads_then {α β : Type} {R : β → Prop} {p : Prog α} {g : α → Prog β} (hp : Reads p) (hg : ∀ a, Post R (g a)) : Post R (p >>= g) := post_bind hp fun a _ => hg a

theorem reads_bind {α β : Type} {p : Prog α} {g : α → Prog β} (hp : Reads p) (hg : ∀ a, Reads (g a)) : Reads (p >>= g) := post_bind hp fun a _ => hg a

theorem Post.reads {α : Type} {Q : α → Prop} {p : Prog α} (h : Post Q p) : Reads p := by
  induction p with
  | ret a => trivial
  | read l k ih => exact fun v => ih v (h v)
  | write l v k _ => exact h

theorem reads_run {α : Type} {p : Prog α} (hp : Reads p) (m : Shared) : (p.run m).2 = m := by
  induction p with
  | ret a => rfl
  | read l k ih => exact ih _ (hp _)
  | write l v k _ => exact hp.elim

theorem getAll_reads {α β : Type} {f : α → Prog β} (h : ∀ x, Reads (f x)) (l : List α) : Reads (getAll f l) := by
  induction l with
  | nil => trivial
  | cons x l ih => exact reads_bind (h x) fun _ => reads_bind ih fun _ => trivial

theorem getAll_run {α β : Type} {f : α → Prog β} {g : α → β} {m : Shared} (h : ∀ x, (f x).run m = (g x, m)) (l : List α) : (getAll f l).run m = (l.map g, m) := by
  induction l with
  | nil => rfl
  | cons x l ih =>
    show (f x >>= _).run m = _
    rw [run_bind, h]
    show (getAll f l >>= _).run m = _
    rw [run_bind, ih]; rfl

theorem getIn_reads (r : Ref TxInput) : Reads (getIn r) := by
  cases r with
  | shared p => exact fun _ _ _ => trivial
  | own => trivial
theorem getOut_reads (r : Ref TxOutput) : Reads (getOut r) := by
  cases r with
  | shared p => exact fun _ _ => trivial
  | own => trivial
theorem getKey_reads (r : KeyCell) : Reads (getKey r) := by
  cases r with
  | «at» a i => exact fun _ => trivial
  | own => trivial
theorem getIn_run (m : Shared) (r : Ref TxInput) : (getIn r).run m = (inputIn m r, m) := by cases r <;> rfl
theorem getOut_run (m : Shared) (r : Ref TxOutput) : (getOut r).run m = (outputIn m r, m) := by cases r <;> rfl

/-- An element of a slice of keys by value. -/
def keyIn (m : Shared) : KeyCell → Bytes
  | .at a i => m (.key a i)
  | .own k => k

theorem getKey_run (m : Shared) (r : KeyCell) : (getKey r).run m = (keyIn m r, m) := by cases r <;> rfl

theorem cells_map (m : Shared) (ks : Keys) : ks.cells.map (keyIn m) = keysIn m ks := by
  cases ks with
  | slice a n cap => simp only [Keys.cells, List.map_map, keysIn]; rfl
  | own l => simp only [Keys.cells, List.map_map, keysIn]; exact List.map_id' l

theorem getBody_reads (ins : List (Ref TxInput)) (outs : List (Ref TxOutput)) (fee : UInt64) (ttl : UInt32) (aux : Bytes) : Reads (getBody ins outs fee ttl aux) :=
  reads_bind (getAll_reads getIn_reads _) fun _ => reads_bind (getAll_reads getOut_reads _) fun _ => trivial

theorem getBody_run (m : Shared) (ins : List (Ref TxInput)) (outs : List (Ref TxOutput)) (fee : UInt64) (ttl : UInt32) (aux : Bytes) :
    (getBody ins outs fee ttl aux).run m = (⟨ins.map (inputIn m), outs.map (outputIn m), fee, ttl, aux⟩, m) := by
  unfold getBody
  rw [run_bind, getAll_run (getIn_run m)]
  simp only
  rw [run_bind, getAll_run (getOut_run m)]; rfl

/-! ## The calls -/

theorem afterAux_eq (C : Crypto) (t : Tx) (k : Nat) : afterAux C t k = { t with body := { t.body with auxHash := auxAfter C t.body.auxHash t.metadata k } } := by
  unfold auxAfter afterAux calcAux
  cases hm : t.metadata with
  | none => simp only
  | some x =>
    simp only
    cases x.enc k <;> simp only [← hm]

theorem minFee_post (C : Crypto) (b : TBuilder) : Post (fun r => r.2.keys = b.keys) (TxThreads.minFee C b) :=
  reads_then (getAll_reads getIn_reads _) fun _ => reads_then (getAll_reads getOut_reads _) fun _ => reads_then (getBody_reads _ _ _ _ _) fun _ =>
    reads_then (getBody_reads _ _ _ _ _) fun _ => rfl

theorem minFee_run (C : Crypto) (m : Shared) (b : TBuilder) :
    ∃ b', (TxThreads.minFee C b).run m = (((MinFee C (seenIn m b)).1, b'), m) ∧ seenIn m b' = (MinFee C (seenIn m b)).2 ∧ b'.inputs = b.inputs ∧ b'.outputs = b.outputs := by
  refine ⟨{ b with wits := if (b.wits.getD b.wit []).length = 0 then b.wits.set b.wit [dummyWitness] else b.wits, clock := b.clock + 5 }, ?_, rfl, rfl, rfl⟩
  unfold TxThreads.minFee
  rw [run_bind, getAll_run (getIn_run m)]
  simp only
  rw [run_bind, getAll_run (getOut_run m)]
  simp only
  rw [run_bind, getBody_run]
  simp only
  rw [run_bind, getBody_run]
  simp only
  refine Prod.ext (Prod.ext ?_ rfl) rfl
  show orZero _ = feePasses C _ (feeTx C (seenIn m b) b.clock) (b.clock + 1)
  have hf : feeTx C (seenIn m b) b.clock =
      ⟨⟨b.inputs.map (inputIn m), (if totalIn (b.inputs.map (inputIn m)) ≠ totalOut (b.outputs.map (outputIn m)) then b.outputs ++
        [.own ⟨innerAddr, totalIn (b.inputs.map (inputIn m)) - totalOut (b.outputs.map (outputIn m)) - 200000⟩] else b.outputs).map (outputIn m), b.fee, b.ttl,
        auxAfter C [] b.metadata b.clock⟩, if (b.wits.getD b.wit []).length = 0 then b.wits.getD b.wit [] ++ [dummyWitness] else b.wits.getD b.wit [], true, b.metadata⟩ := by
    unfold feeTx
    simp only [afterAux_eq]
    show (if totalIn (b.inputs.map (inputIn m)) ≠ totalOut (b.outputs.map (outputIn m)) then _ else _) = _
    by_cases h1 : totalIn (b.inputs.map (inputIn m)) = totalOut (b.outputs.map (outputIn m)) <;>
    by_cases h2 : (b.wits.getD b.wit []).length = 0 <;>
    simp only [ne_eq, h1, not_true_eq_false, not_false_eq_true, if_true, if_false, List.map_append, List.map_cons, List.map_nil, seenIn, witAt, h2, outputIn]
  rw [hf]
  unfold feePasses
  simp only [afterAux_eq]
  rfl

theorem addChange_post (C : Crypto) (b : TBuilder) (a : Address) : Post (fun r => r.keys = b.keys) (TxThreads.addChange C b a) :=
  post_bind (minFee_post C b) fun _ h => reads_then (getAll_reads getIn_reads _) fun _ => reads_then (getAll_reads getOut_reads _) fun _ => h

theorem addChange_run (C : Crypto) (m : Shared) (b : TBuilder) (a : Address) :
    ∃ b', (TxThreads.addChange C b a).run m = (b', m) ∧ seenIn m b' = AddChangeIfNeeded C (seenIn m b) a := by
  obtain ⟨b1, h1, h2, h3, h4⟩ := minFee_run C m b
  unfold TxThreads.addChange
  rw [run_bind, h1]
  simp only
  rw [run_bind, getAll_run (getIn_run m)]
  simp only
  rw [run_bind, getAll_run (getOut_run m)]
  simp only
  refine ⟨_, rfl, ?_⟩
  unfold AddChangeIfNeeded
  simp only [← h2]
  simp only [SetFee, AddOutputs, seenIn, List.map_append, List.map_cons, List.map_nil, outputIn]

theorem signAll_reads (C : Crypto) (h : Bytes) (l : List KeyCell) : Reads (signAll C h l) := by
  induction l with
  | nil => trivial
  | cons c l ih =>
    refine reads_bind (getKey_reads c) fun k => ?_
    cases witnessOf C h k with
    | ok w => exact reads_bind ih fun _ => trivial
    | err m => trivial
    | panic => trivial

theorem signAll_run (C : Crypto) (m : Shared) (h : Bytes) (l : List KeyCell) : (signAll C h l).run m = (witnessesOf C h (l.map (keyIn m)), m) := by
  induction l with
  | nil => rfl
  | cons c l ih =>
    show (getKey c >>= _).run m = _
    rw [run_bind, getKey_run]
    simp only [List.map_cons, witnessesOf]
    cases witnessOf C h (keyIn m c) with
    | ok w =>
      show (signAll C h l >>= _).run m = _
      rw [run_bind, ih]; rfl
    | err e => rfl
    | panic => rfl

theorem build_post (C : Crypto) (b : TBuilder) : Post (fun r => r.2.keys = b.keys) (TxThreads.build C b) := by
  refine reads_then (getBody_reads _ _ _ _ _) fun body => ?_
  cases Transaction.hash C ⟨body, [], b.valid, b.metadata⟩ b.clock with
  | ok h =>
    refine reads_then (signAll_reads C _ _) fun r => ?_
    cases r <;> exact rfl
  | err m => exact rfl
  | panic => exact rfl

theorem hash_tx (C : Crypto) (t : Tx) (ws : List VKeyWitness) (v : Bool) (k : Nat) : hash C ⟨t.body, ws, v, t.metadata⟩ k = hash C t k := by
  unfold Transaction.hash calcAux
  cases t.metadata <;> rfl

theorem build_run (C : Crypto) (m : Shared) (b : TBuilder) :
    ∃ b', (TxThreads.build C b).run m = (((Build C (seenIn m b)).1, b'), m) ∧ seenIn m b' = (Build C (seenIn m b)).2 := by
  unfold TxThreads.build
  rw [run_bind, getBody_run]
  simp only
  have hh : hash C ⟨⟨b.inputs.map (inputIn m), b.outputs.map (outputIn m), b.fee, b.ttl, b.auxHash⟩, [], b.valid, b.metadata⟩ b.clock = hash C (tx (seenIn m b)) b.clock :=
    hash_tx C (tx (seenIn m b)) _ _ _
  rw [hh]
  unfold Build
  simp only [afterAux_eq]
  rw [show (seenIn m b).clock = b.clock from rfl]
  cases Transaction.hash C (tx (seenIn m b)) b.clock with
  | err e => exact ⟨_, rfl, rfl⟩
  | panic => exact ⟨_, rfl, rfl⟩
  | ok h =>
    simp only
    rw [run_bind, signAll_run, cells_map]
    rw [show (seenIn m b).xprvs = keysIn m b.keys from rfl]
    cases witnessesOf C h (keysIn m b.keys) with
    | err e => exact ⟨_, rfl, rfl⟩
    | panic => exact ⟨_, rfl, rfl⟩
    | ok ws => exact ⟨_, rfl, rfl⟩

theorem bytesOf_post (C : Crypto) (b : TBuilder) (h : Handle) : Post (fun r => r.2.keys = b.keys) (TxThreads.bytesOf C b h) :=
  reads_then (getBody_reads _ _ _ _ _) fun _ => rfl

theorem bytesOf_run (C : Crypto) (m : Shared) (b : TBuilder) (h : Handle) :
    ∃ b', (TxThreads.bytesOf C b h).run m = (((TxBuilder.bytesOf C (seenIn m b) h).1, b'), m) ∧ seenIn m b' = (TxBuilder.bytesOf C (seenIn m b) h).2 := by
  unfold TxThreads.bytesOf
  rw [run_bind, getBody_run]
  simp only
  refine ⟨_, rfl, ?_⟩
  unfold TxBuilder.bytesOf
  simp only [afterAux_eq]
  rfl

/-- No room is left in the array behind the slice, or it is not shared. -/
def FullKeys : Keys → Prop
  | .slice _ n cap => cap ≤ n
  | .own _ => True

theorem sign_post (b : TBuilder) (k : Bytes) (hf : FullKeys b.keys) : Post (fun r => FullKeys r.keys) (TxThreads.sign b k) := by
  unfold TxThreads.sign
  cases e : b.keys with
  | own l => trivial
  | slice a n cap =>
    rw [e] at hf
    simp only [if_neg (Nat.not_lt.2 hf)]
    exact reads_then (getAll_reads getKey_reads _) fun _ => trivial

theorem sign_run (m : Shared) (b : TBuilder) (k : Bytes) (hf : FullKeys b.keys) :
    ∃ b', (TxThreads.sign b k).run m = (b', m) ∧ seenIn m b' = TxBuilder.Sign (seenIn m b) k := by
  unfold TxThreads.sign
  cases e : b.keys with
  | own l =>
    refine ⟨_, rfl, ?_⟩
    simp only [seenIn, keysIn, e, TxBuilder.Sign]
  | slice a n cap =>
    rw [e] at hf
    simp only [if_neg (Nat.not_lt.2 hf)]
    rw [run_bind, getAll_run (getKey_run m), cells_map]
    refine ⟨_, rfl, ?_⟩
    simp only [seenIn, keysIn, e, TxBuilder.Sign]

/-- A call that does not write behind a shared slice of keys. -/
def CallOk (b : TBuilder) (c : Call) : Prop := (∀ k, c ≠ .sign k) ∨ FullKeys b.keys

theorem call_post (C : Crypto) (b : TBuilder) (c : Call) (h : CallOk b c) : Post (fun r => FullKeys b.keys → FullKeys r.2.keys) (TxThreads.call C b c) := by
  have keep : ∀ {b' : TBuilder}, b'.keys = b.keys → FullKeys b.keys → FullKeys b'.keys := fun e h => by rw [e]; exact h
  cases c with
  | addInputs l => exact id
  | addOutputs l => exact id
  | setTTL n => exact id
  | setMetadata x => exact id
  | sign k => exact post_bind (sign_post b k (h.resolve_left fun h => h k rfl)) fun _ h _ => h
  | minFee => exact post_bind (minFee_post C b) fun _ h => keep h
  | addChange a => exact post_bind (addChange_post C b a) fun _ h => keep h
  | build => exact post_bind (build_post C b) fun _ h => keep h
  | bytesOf x => exact post_bind (bytesOf_post C b x) fun _ h => keep h

theorem call_run (C : Crypto) (m : Shared) (b : TBuilder) (c : Call) (h : CallOk b c) :
    ∃ b', (TxThreads.call C b c).run m = ((answerOf C (seenIn m b) c, b'), m) ∧ seenIn m b' = TxBuilder.step C (seenIn m b) (callIn m c) := by
  cases c with
  | addInputs l => exact ⟨_, rfl, by simp only [seenIn, List.map_append]; rfl⟩
  | addOutputs l => exact ⟨_, rfl, by simp only [seenIn, List.map_append]; rfl⟩
  | setTTL n => exact ⟨_, rfl, rfl⟩
  | setMetadata x => exact ⟨_, rfl, rfl⟩
  | sign k =>
    obtain ⟨b', h2, h3⟩ := sign_run m b k (h.resolve_left fun h => h k rfl)
    refine ⟨b', ?_, h3⟩
    show (TxThreads.sign b k >>= _).run m = _
    rw [run_bind, h2]; rfl
  | minFee =>
    obtain ⟨b', h1, h2, -⟩ := minFee_run C m b
    refine ⟨b', ?_, h2⟩
    show (TxThreads.minFee C b >>= _).run m = _
    rw [run_bind, h1]; rfl
  | addChange a =>
    obtain ⟨b', h1, h2⟩ := addChange_run C m b a
    refine ⟨b', ?_, h2⟩
    show (TxThreads.addChange C b a >>= _).run m = _
    rw [run_bind, h1]; rfl
  | build =>
    obtain ⟨b', h1, h2⟩ := build_run C m b
    refine ⟨b', ?_, h2⟩
    show (TxThreads.build C b >>= _).run m = _
    rw [run_bind, h1]; rfl
  | bytesOf x =>
    obtain ⟨b', h1, h2⟩ := bytesOf_run C m b x
    refine ⟨b', ?_, h2⟩
    show (TxThreads.bytesOf C b x >>= _).run m = _
    rw [run_bind, h1]; rfl

theorem post_run {α : Type} {Q : α → Prop} {p : Prog α} (h : Post Q p) (m : Shared) : Q (p.run m).1 := by
  induction p with
  | ret a => exact h
  | read l k ih => exact ih _ (h _)
  | write l v k _ => exact h.elim

/-- The goroutine gives its builders slices of keys that leave no room in a shared array. -/
def FullClient : Client → Prop
  | .done => True
  | .new _ ks next => FullKeys ks ∧ FullClient next
  | .call _ _ next => ∀ a, FullClient (next a)

/-- The goroutine does not call `Sign`: it gives all keys to `NewTxBuilder`. -/
def NoSign : Client → Prop
  | .done => True
  | .new _ _ next => NoSign next
  | .call _ c next => (∀ k, c ≠ .sign k) ∧ ∀ a, NoSign (next a)

/-- Slices of keys without room, or no call of `Sign`. -/
def SafeClient (c : Client) : Prop := FullClient c ∨ NoSign c

theorem safe_call {i : Nat} {c : Call} {next : Answer → Client} {bs : List TBuilder} (h : (FullClient (.call i c next) ∧ ∀ b ∈ bs, FullKeys b.keys) ∨ NoSign (.call i c next))
    {b : TBuilder} (e : bs[i]? = some b) : CallOk b c ∧ ∀ a b', (FullKeys b.keys → FullKeys b'.keys) →
      (FullClient (next a) ∧ ∀ x ∈ bs.set i b', FullKeys x.keys) ∨ NoSign (next a) := by
  have hmem := List.mem_of_getElem? e
  refine ⟨(h.imp (fun h => h.2 b hmem) (fun h => h.1)).symm, fun a b' hb => h.imp (fun h => ⟨h.1 _, fun x hx => ?_⟩) (fun h => h.2 _)⟩
  rcases List.mem_or_eq_of_mem_set hx with hx | rfl
  · exact h.2 x hx
  · exact hb (h.2 b hmem)

theorem safe_new {p : Protocol} {ks : Keys} {next : Client} {bs : List TBuilder} (h : (FullClient (.new p ks next) ∧ ∀ b ∈ bs, FullKeys b.keys) ∨ NoSign (.new p ks next)) :
    (FullClient next ∧ ∀ b ∈ bs ++ [newBuilder p ks], FullKeys b.keys) ∨ NoSign next := by
  refine h.imp (fun h => ⟨h.1.2, fun b hb => ?_⟩) id
  rcases List.mem_append.1 hb with hb | hb
  · exact h.2 b hb
  · rw [List.mem_singleton.1 hb]; exact h.1.1

theorem client_reads (C : Crypto) (c : Client) : ∀ bs : List TBuilder, (FullClient c ∧ ∀ b ∈ bs, FullKeys b.keys) ∨ NoSign c → Reads (client C c bs) := by
  induction c with
  | done => exact fun bs _ => trivial
  | new p ks next ih => exact fun bs h => ih _ (safe_new h)
  | call i c next ih =>
    intro bs h
    unfold client
    cases e : bs[i]? with
    | none => exact ih .nothing bs (h.imp (fun h => ⟨h.1 _, h.2⟩) (fun h => h.2 _))
    | some b =>
      obtain ⟨h1, h2⟩ := safe_call h e
      exact post_bind (call_post C b c h1) fun r hr => reads_bind (ih _ _ (h2 _ _ hr)) fun _ => trivial

theorem client_run (C : Crypto) (m : Shared) (c : Client) : ∀ bs : List TBuilder, (FullClient c ∧ ∀ b ∈ bs, FullKeys b.keys) ∨ NoSign c →
    ∃ l bs', (client C c bs).run m = ((l, bs'), m) ∧ aloneIn C m c (bs.map (seenIn m)) = (l, bs'.map (seenIn m)) := by
  induction c with
  | done => exact fun bs _ => ⟨[], bs, rfl, rfl⟩
  | new p ks next ih =>
    intro bs h
    have := ih _ (safe_new h)
    rw [List.map_append] at this
    exact this
  | call i c next ih =>
    intro bs h
    unfold client aloneIn
    rw [List.getElem?_map]
    cases e : bs[i]? with
    | none => exact ih .nothing bs (h.imp (fun h => ⟨h.1 _, h.2⟩) (fun h => h.2 _))
    | some b =>
      obtain ⟨h1, h2⟩ := safe_call h e
      simp only [Option.map_some]
      obtain ⟨b', k1, k2⟩ := call_run C m b c h1
      have k3 := post_run (call_post C b c h1) m
      rw [k1] at k3
      rw [run_bind, k1]
      simp only
      rw [run_bind]
      obtain ⟨l, bs', k4, k5⟩ := ih (answerOf C (seenIn m b) c) (bs.set i b') (h2 _ _ k3)
      rw [k4]
      refine ⟨_, bs', rfl, ?_⟩
      rw [List.map_set, k2] at k5
      rw [k5]

/-! ## Interleaving -/

variable {T : Type} [DecidableEq T] {α : Type}

theorem step_reads (s : Pool T α) (h : ∀ t, Reads (s.prog t)) (t : T) :
    (∀ t', Reads ((s.step t).prog t')) ∧ (s.step t).shared = s.shared ∧ (∀ t', ((s.step t).prog t').run s.shared = (s.prog t').run s.shared) ∧
      ∀ t', ((s.step t).prog t').cost s.shared = (s.prog t').cost s.shared - if t' = t then 1 else 0 := by
  have ht := h t
  unfold Pool.step
  cases e : s.prog t with
  | ret a =>
    refine ⟨h, rfl, fun _ => rfl, fun t' => ?_⟩
    by_cases c : t' = t
    · subst c; rw [e]; simp [Prog.cost]
    · simp [c]
  | write l v k => rw [e] at ht; exact ht.elim
  | read l k =>
    rw [e] at ht
    refine ⟨fun t' => ?_, rfl, fun t' => ?_, fun t' => ?_⟩
    · by_cases c : t' = t
      · subst c; simp only [Function.update_self]; exact ht _
      · simp only [Function.update_of_ne c]; exact h t'
    · by_cases c : t' = t
      · subst c; simp only [Function.update_self, e, Prog.run]
      · simp only [Function.update_of_ne c]
    · by_cases c : t' = t
      · subst c; simp only [Function.update_self, e, Prog.cost, if_true, Nat.add_sub_cancel]
      · simp only [Function.update_of_ne c, if_neg c, Nat.sub_zero]

theorem exec_reads (schedule : List T) : ∀ s : Pool T α, (∀ t, Reads (s.prog t)) →
    (∀ t', Reads ((s.exec schedule).prog t')) ∧ (s.exec schedule).shared = s.shared ∧ (∀ t', ((s.exec schedule).prog t').run s.shared = (s.prog t').run s.shared) ∧
      ∀ t', ((s.exec schedule).prog t').cost s.shared = (s.prog t').cost s.shared - schedule.count t' := by
  induction schedule with
  | nil => exact fun s h => ⟨h, rfl, fun _ => rfl, fun _ => rfl⟩
  | cons t l ih =>
    intro s h
    obtain ⟨h1, h2, h3, h4⟩ := step_reads s h t
    obtain ⟨k1, k2, k3, k4⟩ := ih (s.step t) h1
    rw [h2] at k2 k3 k4
    refine ⟨k1, k2, fun t' => (k3 t').trans (h3 t'), fun t' => ?_⟩
    show (((s.step t).exec l).prog t').cost s.shared = _
    rw [k4, h4, List.count_cons]
    by_cases c : t' = t
    · subst c; simp; omega
    · have : ¬ t = t' := fun e => c e.symm
      simp [c, this]

/-- Goroutines at the start. -/
def goPool (C : Crypto) (m : Shared) (clients : T → Client) : Pool T (List Answer × List TBuilder) := ⟨m, fun t => client C (clients t) []⟩

omit [DecidableEq T] in
theorem start_reads (C : Crypto) (m : Shared) (clients : T → Client) (h : ∀ t, SafeClient (clients t)) (t : T) : Reads ((goPool C m clients).prog t) :=
  client_reads C _ _ ((h t).imp (fun h => ⟨h, fun _ hb => absurd hb List.not_mem_nil⟩) id)

/-- **C116: no races.** Any number of goroutines, each with builders of its own, use shared inputs, outputs and slices of keys; no goroutine gives a slice of keys with room behind it to a builder
on which it calls `Sign`. In whatever order their steps are taken, no goroutine ever writes shared memory, and there is no data race. -/
theorem C116_no_race (C : Crypto) (m : Shared) (clients : T → Client) (h : ∀ t, SafeClient (clients t)) (schedule : List T) :
    ((goPool C m clients).exec schedule).shared = m ∧
      (∀ t l, (((goPool C m clients).exec schedule).prog t).next ≠ some (l, true)) ∧ ∀ t t', ¬ ((goPool C m clients).exec schedule).Races t t' := by
  obtain ⟨h1, h2, -, -⟩ := exec_reads schedule (goPool C m clients) (start_reads C m clients h)
  have key : ∀ t l, (((goPool C m clients).exec schedule).prog t).next ≠ some (l, true) := by
    intro t l e
    have := h1 t
    cases e' : ((goPool C m clients).exec schedule).prog t with
    | ret a => rw [e'] at e; cases e
    | read l k => rw [e'] at e; cases e
    | write l v k => rw [e'] at this; exact this
  refine ⟨h2, key, ?_⟩
  rintro t t' ⟨-, l, w, w', e1, e2, rfl | rfl⟩
  · exact key t l e1
  · exact key t' l e2

/-- **C116: every goroutine gets what it would get alone.** When a goroutine has finished, all answers of `MinFee`, `Build` and `Bytes` and its builders are those of the builders of
`Tx/Model.lean` with the values of the shared objects, whatever the other goroutines did in the meantime. -/
theorem C116_answers (C : Crypto) (m : Shared) (clients : T → Client) (h : ∀ t, SafeClient (clients t)) (schedule : List T) (t : T) (l : List Answer) (bs : List TBuilder)
    (e : ((goPool C m clients).exec schedule).prog t = .ret (l, bs)) : (l, bs.map (seenIn m)) = aloneIn C m (clients t) [] := by
  obtain ⟨-, -, h3, -⟩ := exec_reads schedule (goPool C m clients) (start_reads C m clients h)
  have h3 := h3 t
  rw [e] at h3
  obtain ⟨l', bs', k1, k2⟩ := client_run C m (clients t) [] ((h t).imp (fun h => ⟨h, fun _ hb => absurd hb List.not_mem_nil⟩) id)
  have h3 : ((l, bs), m) = (client C (clients t) []).run m := h3
  rw [k1] at h3
  have h4 := congrArg Prod.fst h3
  simp only [Prod.mk.injEq] at h4
  obtain ⟨rfl, rfl⟩ := h4
  exact k2.symm

/-- One builder and calls on it that do not depend on answers. -/
def straight (p : Protocol) (ks : Keys) (calls : List Call) : Client := .new p ks (calls.foldr (fun c next => .call 0 c fun _ => next) .done)

theorem alone_straight (C : Crypto) (m : Shared) (calls : List Call) : ∀ b : Builder,
    (aloneIn C m (calls.foldr (fun c next => .call 0 c fun _ => next) .done) [b]).2 = [TxBuilder.run C b (calls.map (callIn m))] := by
  induction calls with
  | nil => exact fun b => rfl
  | cons c l ih => exact fun b => ih (TxBuilder.step C b (callIn m c))

/-- **C116: the builders of the other properties.** A goroutine that makes one builder and a list of calls has at the end the builder that the same calls make alone, so that what is proved about sequences
of calls holds for it. -/
theorem C116_builder (C : Crypto) (m : Shared) (clients : T → Client) (h : ∀ t, SafeClient (clients t)) (schedule : List T) (t : T) (l : List Answer) (bs : List TBuilder)
    (e : ((goPool C m clients).exec schedule).prog t = .ret (l, bs)) (p : Protocol) (ks : Keys) (calls : List Call) (hc : clients t = straight p ks calls) :
    bs.map (seenIn m) = [TxBuilder.run C (NewTxBuilder p (keysIn m ks)) (calls.map (callIn m))] := by
  have h1 := congrArg Prod.snd (C116_answers C m clients h schedule t l bs e)
  rw [hc] at h1
  exact h1.trans (alone_straight C m calls _)

theorem cost_zero {p : Prog α} {m : Shared} (h : p.cost m = 0) : ∃ a, p = .ret a := by
  cases p with
  | ret a => exact ⟨a, rfl⟩
  | read l k => cases h
  | write l v k => cases h

/-- **C116: goroutines finish.** A goroutine that is scheduled often enough has finished, whatever the others do. -/
theorem C116_ends (C : Crypto) (m : Shared) (clients : T → Client) (h : ∀ t, SafeClient (clients t)) (t : T) :
    ∃ n, ∀ schedule : List T, n ≤ schedule.count t → ∃ r, ((goPool C m clients).exec schedule).prog t = .ret r := by
  refine ⟨((goPool C m clients).prog t).cost m, fun schedule hs => ?_⟩
  obtain ⟨-, -, -, h4⟩ := exec_reads schedule (goPool C m clients) (start_reads C m clients h)
  refine cost_zero (m := m) ?_
  have := h4 t
  rw [show (goPool C m clients).shared = m from rfl] at this
  omega

/-! ## Keys with room behind them -/

theorem exec_alone (t : T) (p : Prog α) : ∀ s : Pool T α, s.prog t = p → ∃ n, (s.exec (List.replicate n t)).prog t = .ret (p.run s.shared).1 := by
  induction p with
  | ret a => exact fun s e => ⟨0, e⟩
  | read l k ih =>
    intro s e
    have h1 : s.step t = { s with prog := Function.update s.prog t (k (s.shared l)) } := by unfold Pool.step; rw [e]
    obtain ⟨n, hn⟩ := ih (s.shared l) (s.step t) (by rw [h1]; simp)
    refine ⟨n + 1, ?_⟩
    rw [List.replicate_succ]
    show ((s.step t).exec _).prog t = _
    rw [hn, h1]; rfl
  | write l v k ih =>
    intro s e
    have h1 : s.step t = ⟨Function.update s.shared l v, Function.update s.prog t k⟩ := by unfold Pool.step; rw [e]
    obtain ⟨n, hn⟩ := ih (s.step t) (by rw [h1]; simp)
    refine ⟨n + 1, ?_⟩
    rw [List.replicate_succ]
    show ((s.step t).exec _).prog t = _
    rw [hn, h1]; rfl

/-- **C116: without the condition.** Two goroutines make builders from the same slice of keys, behind which there is room, and call `Sign` with different keys. The two calls are a data race; and in some
order of the steps the first goroutine, whatever it does next, has a builder with the key of the second in place of its own. -/
theorem C116_sign_races (C : Crypto) (m : Shared) (p : Protocol) (a n cap : Nat) (hroom : n < cap) (k k' : Bytes) (rest rest' : Answer → Client) (hrest : NoSign (rest .nothing)) :
    let clients : Bool → Client := fun t => .new p (.slice a n cap) (.call 0 (.sign (if t then k' else k)) (if t then rest' else rest))
    let m' : Shared := Function.update m (.key a n) k'
    (goPool C m clients).Races false true ∧
      ∃ schedule l bs, ((goPool C m clients).exec schedule).prog false = .ret (.nothing :: l, bs) ∧
        (l, bs.map (seenIn m')) = aloneIn C m' (rest .nothing) [NewTxBuilder p (keysIn m (.slice a n cap) ++ [k'])] := by
  intro clients m'
  let b1 : TBuilder := { newBuilder p (.slice a n cap) with keys := .slice a (n + 1) cap }
  let tail : Client → Prog (List Answer × List TBuilder) := fun c => client C c [b1] >>= fun r => .ret (.nothing :: r.1, r.2)
  have hprog : ∀ t, (goPool C m clients).prog t = .write (.key a n) (if t then k' else k) (tail ((if t then rest' else rest) .nothing)) := by
    intro t
    show (TxThreads.sign (newBuilder p (.slice a n cap)) _ >>= _) >>= _ = _
    unfold TxThreads.sign
    simp only [newBuilder, if_pos hroom]
    rfl
  refine ⟨⟨by decide, .key a n, true, true, by rw [hprog]; rfl, by rw [hprog]; rfl, Or.inl rfl⟩, ?_⟩
  have h1 : ((goPool C m clients).exec [false, true]).shared = m' ∧ ((goPool C m clients).exec [false, true]).prog false = tail (rest .nothing) := by
    show (((goPool C m clients).step false).step true).shared = _ ∧ (((goPool C m clients).step false).step true).prog false = _
    have e1 : (goPool C m clients).step false = ⟨Function.update m (.key a n) k, Function.update (goPool C m clients).prog false (tail (rest .nothing))⟩ := by
      unfold Pool.step; rw [hprog]; rfl
    rw [e1]
    unfold Pool.step
    simp only [Function.update_of_ne (show true ≠ false by decide), hprog]
    refine ⟨Function.update_idem _ _ _, ?_⟩
    rw [Function.update_of_ne (by decide), Function.update_self]
  obtain ⟨N, hN⟩ := exec_alone false _ _ h1.2
  obtain ⟨l, bs, c1, c2⟩ := client_run C m' (rest .nothing) [b1] (Or.inr hrest)
  refine ⟨[false, true] ++ List.replicate N false, l, bs, ?_, ?_⟩
  · unfold Pool.exec at hN ⊢
    rw [List.foldl_append, hN, show List.foldl Pool.step (goPool C m clients) [false, true] = (goPool C m clients).exec [false, true] from rfl, h1.1]
    show Prog.ret ((client C (rest .nothing) [b1] >>= _).run m').1 = _
    rw [run_bind, c1]; rfl
  · rw [← c2]
    have hk : keysIn m' (.slice a (n + 1) cap) = keysIn m (.slice a n cap) ++ [k'] := by
      have gen : ∀ f g : Nat → Bytes, (∀ i, i < n → f i = g i) → f n = k' → (List.range (n + 1)).map f = (List.range n).map g ++ [k'] := by
        intro f g h1 h2
        rw [List.range_succ, List.map_append, List.map_cons, List.map_nil, h2]
        exact congrArg (· ++ [k']) (List.map_congr_left fun i hi => h1 i (List.mem_range.1 hi))
      exact gen (fun i => m' (.key a i)) (fun i => m (.key a i))
        (fun i hi => Function.update_of_ne (by simp only [ne_eq, Loc.key.injEq, true_and]; omega) _ _) (Function.update_self ..)
    show aloneIn C m' (rest .nothing) [NewTxBuilder p (keysIn m' (.slice a (n + 1) cap))] = _
    rw [hk]

/-- C116: a goroutine for every number; all use the same input, the same output and the same key, which fills its array; every goroutine adds a key, change to some address and a TTL of its own. -/
def crowd (p : Protocol) (change : Address) (t : Nat) : Client :=
  straight p (.slice 0 1 1) [.addInputs [.shared 0], .addOutputs [.shared 0], .sign [UInt8.ofNat t], .setTTL (UInt32.ofNat t), .addChange change, .build]

example (p : Protocol) (change : Address) (t : Nat) : SafeClient (crowd p change t) := by
  refine Or.inl ⟨Nat.le_refl 1, ?_⟩
  intro _ _ _ _ _ _
  trivial

/-- C116: it does finish. -/
example (C : Crypto) (m : Shared) (p : Protocol) (change : Address) (t : Nat) :
    ∃ n, ∀ schedule : List Nat, n ≤ schedule.count t → ∃ r, ((goPool C m (crowd p change)).exec schedule).prog t = .ret r := by
  refine C116_ends C m (crowd p change) (fun t => Or.inl ⟨Nat.le_refl 1, ?_⟩) t
  intro _ _ _ _ _ _
  trivial

/-- C116: clients that add one key and build meet the hypothesis of the race. -/
example : NoSign (.call 0 .build fun _ => .done) ∧ (1 : Nat) < 2 := ⟨⟨fun k h => (by cases h), fun _ => trivial⟩, by decide⟩

end Cardano.Props
