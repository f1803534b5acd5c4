/-!
# Model of `OrderInfo::Update` and `OrderInfo::Accumulate` with messages

Source/Solver/OrderInfo.cpp L657-785.  Both functions have the same structure: receive operations are posted, values are packed and sent, the
process waits for all received messages, unpacks them and waits until its own messages are delivered.  `inl` is the packed array that describes what is received
(`vector_exchange_recv` in `Update`, `vector_exchange_send` in `Accumulate`), `outl` the one that describes what is sent; `op old new` is the value stored when a value is
received (`new` in `Update`, `old + new` in `Accumulate`).

A message from `src` to `dst` stays in a channel until it is matched with a receive operation of `dst` for this source and tag (first message, first operation).  A send
operation completes when the message is matched: nothing is assumed about buffers.
-/

namespace Verif.OrderInfo

/-- A process. -/
structure Proc (K : Type) where
  /-- the vector -/
  x : Nat → K
  /-- the number of posted receive operations -/
  posted : Nat
  /-- the number of sent messages -/
  sent : Nat
  /-- `Waitall` for receive operations passed, data unpacked -/
  unpacked : Bool
  /-- the function returned -/
  done : Bool
  /-- the received data, for each receive operation -/
  buf : Nat → Option (List K)

/-- All processes and the channels: `net src dst` are the messages on the way, with tags. -/
structure World (K : Type) where
  proc : Nat → Proc K
  net : Nat → Nat → List (Nat × List K)

/-- The constants of an exchange. -/
structure Cfg (K : Type) where
  size : Nat
  maxTag : Nat
  inl : Nat → List (Nat × List Nat)
  outl : Nat → List (Nat × List Nat)
  op : K → K → K

variable {K : Type}

/-- The tag of messages from `src` to `dst` as computed by the sender: L692, L757. -/
def sendTag (c : Cfg K) (src dst : Nat) : Nat := (src * c.size + dst) % c.maxTag

/-- The tag of messages from `src` as computed by the receiver `dst`: L682, L745. -/
def recvTag (c : Cfg K) (src dst : Nat) : Nat := (src * c.size + dst) % c.maxTag

/-- One entry is unpacked, L703 and L770. -/
def unpackEntry (op : K → K → K) (x : Nat → K) (pos : List Nat) (d : List K) : Nat → K :=
  (pos.zip d).foldl (fun x e => fun i => if i = e.1 then op (x i) e.2 else x i) x

/-- All entries are unpacked, L700-706 and L767-773. -/
def unpackAll (op : K → K → K) (x : Nat → K) (es : List (List Nat × List K)) : Nat → K :=
  es.foldl (fun x e => unpackEntry op x e.1 e.2) x

/-- A process is changed. -/
def World.set (w : World K) (p : Nat) (s : Proc K) : World K := { w with proc := fun q => if q = p then s else w.proc q }

/-- A channel is changed. -/
def World.setNet (w : World K) (src dst : Nat) (l : List (Nat × List K)) : World K :=
  { w with net := fun a b => if a = src ∧ b = dst then l else w.net a b }

/-- The steps of the processes and of the network. -/
inductive Step (c : Cfg K) : World K → World K → Prop
  /-- L679-685, L741-749: a receive operation is posted -/
  | post (w : World K) (p : Nat) (hp : p < c.size) (h : (w.proc p).posted < (c.inl p).length) :
      Step c w (w.set p { w.proc p with posted := (w.proc p).posted + 1 })
  /-- L687-695, L751-761: values are packed and sent, after all receive operations are posted -/
  | send (w : World K) (p dst : Nat) (pos : List Nat) (hp : p < c.size) (h : (w.proc p).posted = (c.inl p).length)
      (he : (c.outl p)[(w.proc p).sent]? = some (dst, pos)) :
      Step c w ((w.set p { w.proc p with sent := (w.proc p).sent + 1 }).setNet p dst (w.net p dst ++ [(sendTag c p dst, pos.map (w.proc p).x)]))
  /-- the network delivers a message: the first one with this tag in the channel, to the first posted operation for this source and tag that has no data;
  the message must not be longer than the receive buffer -/
  | deliver (w : World K) (src dst i : Nat) (pos : List Nat) (tag : Nat) (d : List K) (l1 l2 : List (Nat × List K)) (hd : dst < c.size)
      (hnet : w.net src dst = l1 ++ (tag, d) :: l2) (hfirst : ∀ m ∈ l1, m.1 ≠ tag)
      (hi : i < (w.proc dst).posted) (he : (c.inl dst)[i]? = some (src, pos)) (htag : recvTag c src dst = tag)
      (hlen : d.length ≤ pos.length) (hbuf : (w.proc dst).buf i = none)
      (hop : ∀ (j : Nat) (pos' : List Nat), j < i → (c.inl dst)[j]? = some (src, pos') → (w.proc dst).buf j ≠ none) :
      Step c w ((w.set dst { w.proc dst with buf := fun j => if j = i then some d else (w.proc dst).buf j }).setNet src dst (l1 ++ l2))
  /-- L696-707, L762-774: all messages are received, the data is unpacked -/
  | unpack (w : World K) (p : Nat) (ds : List (List K)) (hp : p < c.size) (hs : (w.proc p).sent = (c.outl p).length)
      (hposted : (w.proc p).posted = (c.inl p).length) (hu : (w.proc p).unpacked = false)
      (hds : ds.length = (c.inl p).length) (hbuf : ∀ (i : Nat), i < (c.inl p).length → (w.proc p).buf i = ds[i]?) :
      Step c w (w.set p { w.proc p with x := unpackAll c.op (w.proc p).x (((c.inl p).map (·.2)).zip ds), unpacked := true })
  /-- L708-711, L775-779: all own messages are delivered -/
  | finish (w : World K) (p : Nat) (hp : p < c.size) (hu : (w.proc p).unpacked = true) (hd : (w.proc p).done = false)
      (hnet : ∀ dst, w.net p dst = []) :
      Step c w (w.set p { w.proc p with done := true })

/-- The start: nothing is posted or sent, the channels are empty. -/
def World.init (x : Nat → Nat → K) : World K :=
  { proc := fun p => { x := x p, posted := 0, sent := 0, unpacked := false, done := false, buf := fun _ => none }, net := fun _ _ => [] }

/-- Executions of the exchange. -/
inductive Reach (c : Cfg K) (x : Nat → Nat → K) : World K → Prop
  | start : Reach c x (World.init x)
  | step {w w' : World K} : Reach c x w → Step c w w' → Reach c x w'

/-- All processes have returned. -/
def World.Finished (c : Cfg K) (w : World K) : Prop := ∀ p, p < c.size → (w.proc p).done = true

end Verif.OrderInfo
