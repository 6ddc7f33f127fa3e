/-!
# Messages between client and server

`fail2ban/compat/asynchat.py` (`handle_read`, `push`, `initiate_send`, `find_prefix_at_end`), `fail2ban/server/asyncserver.py`
(`RequestHandler`), `fail2ban/client/csocket.py` (`send`, `receive`), `fail2ban/protocol.py` (`CSPROTO`).

Bytes on a connection; what `recv` returns and how much `send` accepts is arbitrary. Pickle is a parameter (`Codec`). Errors of the socket
(`handle_error`) are left out.
-/

namespace Verif

namespace Framing

abbrev Bytes := List UInt8

/-- bytes of an ASCII text -/
def ascii (s : String) : Bytes := s.toList.map (fun c => UInt8.ofNat c.toNat)

/-- `CSPROTO.END` (protocol.py 44) -/
def endMark : Bytes := ascii "<F2B_END_COMMAND>"

/-- `CSPROTO.CLOSE` (protocol.py 45) -/
def closeMark : Bytes := ascii "<F2B_CLOSE_COMMAND>"

/-- `bytes.find` -/
def find (t : Bytes) : Bytes → Option Nat
  | [] => if t = [] then some 0 else none
  | a :: l => if t.isPrefixOf (a :: l) then some 0 else (find t l).map (· + 1)

/-- `find_prefix_at_end(haystack, needle)` from `l` downwards (asynchat.py 306-310) -/
def prefixAtEnd (hay needle : Bytes) : Nat → Nat
  | 0 => 0
  | l + 1 => if (needle.take (l + 1)).isSuffixOf hay then l + 1 else prefixAtEnd hay needle l

/-- Input side of a connection: `ac_in_buffer` and the collected data (`RequestHandler.__buffer`, joined). -/
structure Input where
  inBuf : Bytes
  collected : Bytes
deriving DecidableEq, Repr

/-- The loop of `handle_read` (asynchat.py 136-187) for a terminator that is a text; messages for which `found_terminator` is called. The
number of rounds is at most the number of bytes. -/
def scan (t : Bytes) : Nat → Input → List Bytes × Input
  | 0, c => ([], c)
  | n + 1, c =>
    if c.inBuf = [] then ([], c)
    else
      match find t c.inBuf with
      | some i =>
        let x := scan t n ⟨c.inBuf.drop (i + t.length), []⟩
        ((c.collected ++ c.inBuf.take i) :: x.1, x.2)
      | none =>
        let l := prefixAtEnd c.inBuf t (t.length - 1)
        if l ≠ 0 then
          if l ≠ c.inBuf.length then ([], ⟨c.inBuf.drop (c.inBuf.length - l), c.collected ++ c.inBuf.take (c.inBuf.length - l)⟩)
          else ([], c)
        else scan t n ⟨[], c.collected ++ c.inBuf⟩

/-- `handle_read` (asynchat.py 117-187) -/
def read (t : Bytes) (c : Input) (data : Bytes) : List Bytes × Input :=
  scan t (c.inBuf ++ data).length ⟨c.inBuf ++ data, c.collected⟩

/-- Successive calls of `handle_read`. -/
def readAll (t : Bytes) (c : Input) : List Bytes → List Bytes × Input
  | [] => ([], c)
  | data :: cs =>
    let x := read t c data
    let y := readAll t x.2 cs
    (x.1 ++ y.1, y.2)

/-- Serialization: pickle. -/
structure Codec (V : Type) where
  loads : Bytes → Option V
  /-- `none`: cannot be serialized -/
  dumps : V → Option Bytes
  /-- `dumps("ERROR: ...")` after a failed `loads` and after a failed `dumps` -/
  loadError : Bytes
  dumpError : Bytes

/-- `RequestHandler` (asyncserver.py 55-) with the output side of `async_chat`, and the state of the server. -/
structure Handler (σ : Type) where
  input : Input
  /-- `producer_fifo`; `none`: close -/
  fifo : List (Option Bytes)
  connected : Bool
  /-- number of calls of `send` -/
  attempts : Nat
  /-- bytes given to the socket -/
  sent : Bytes
  server : σ

/-- `ac_out_buffer_size` (asynchat.py 62) -/
def outSize : Nat := 65536

/-- `initiate_send()` (asynchat.py 227-265); `accept`: how many bytes the socket takes at a call of `send` -/
def initiateSend {σ : Type} (accept : Nat → Bytes → Nat) (h : Handler σ) : Handler σ :=
  if h.connected then
    match h.fifo with
    | [] => h
    | none :: r => { h with fifo := r, connected := false }
    | some b :: r =>
      if b = [] then { h with fifo := r, attempts := h.attempts + 1 }
      else
        let data := b.take outSize
        let n := min (accept h.attempts data) data.length
        if n = 0 then { h with attempts := h.attempts + 1 }
        else if n < data.length ∨ outSize < b.length then
          { h with fifo := some (b.drop n) :: r, attempts := h.attempts + 1, sent := h.sent ++ data.take n }
        else { h with fifo := r, attempts := h.attempts + 1, sent := h.sent ++ data.take n }
  else h

/-- the pieces `data[i:i+sabs]` (asynchat.py 201-202) -/
def pieces (size : Nat) : Nat → Bytes → List Bytes
  | 0, _ => []
  | n + 1, d => if d = [] then [] else d.take size :: pieces size n (d.drop size)

/-- `push(data)` (asynchat.py 195-205) -/
def push {σ : Type} (accept : Nat → Bytes → Nat) (h : Handler σ) (data : Bytes) : Handler σ :=
  initiateSend accept { h with fifo := h.fifo ++ (if outSize < data.length then pieces outSize data.length data else [data]).map some }

/-- `found_terminator()` (asyncserver.py 93-126) for a message; `proceed`: the transmitter (it returns an answer in any case) -/
def foundTerminator {σ V : Type} (codec : Codec V) (proceed : σ → V → σ × V) (accept : Nat → Bytes → Nat) (h : Handler σ) (message : Bytes) : Handler σ :=
  if message = closeMark then { h with fifo := h.fifo ++ [none] }
  else
    match codec.loads message with
    | none => push accept h (codec.loadError ++ endMark)
    | some v =>
      let x := proceed h.server v
      match codec.dumps x.2 with
      | none => push accept { h with server := x.1 } (codec.dumpError ++ endMark)
      | some d => push accept { h with server := x.1 } (d ++ endMark)

/-- Events of a connection: data can be read, the peer closed (`recv` returned nothing), data can be written. -/
inductive Event where
  | data (chunk : Bytes)
  | closed
  | writable
deriving DecidableEq, Repr

/-- An event, dispatched while the connection is open (asynchat.py 117, 189, asyncore.py 369-376, 387-391). -/
def step {σ V : Type} (codec : Codec V) (proceed : σ → V → σ × V) (accept : Nat → Bytes → Nat) (h : Handler σ) : Event → Handler σ
  | .data chunk =>
    if h.connected then
      let x := read endMark h.input chunk
      x.1.foldl (foundTerminator codec proceed accept) { h with input := x.2 }
    else h
  | .closed => { h with connected := false }
  | .writable => initiateSend accept h

/-- A new connection. -/
def Handler.new {σ : Type} (s : σ) : Handler σ := ⟨⟨[], []⟩, [], true, 0, [], s⟩

/-- A connection. -/
def serve {σ V : Type} (codec : Codec V) (proceed : σ → V → σ × V) (accept : Nat → Bytes → Nat) (h : Handler σ) (es : List Event) : Handler σ :=
  es.foldl (step codec proceed accept) h

/-- Result of `receive` -/
inductive Received where
  /-- the message given to `loads`, and what was not read -/
  | message (msg : Bytes) (unread : List Bytes)
  /-- 'Connection reset by peer' -/
  | reset
  /-- all that came is read, still waiting -/
  | waiting
deriving DecidableEq, Repr

/-- the condition of the loop (csocket.py 86): the mark is found in the last 32 bytes -/
def complete (msg : Bytes) : Bool := (find endMark (msg.drop (msg.length - 32))).isSome

/-- `CSocket.receive` (csocket.py 81-93) on the chunks returned by `recv` -/
def receive : Bytes → List Bytes → Received
  | msg, [] => if complete msg then .message msg [] else .waiting
  | msg, c :: cs =>
    if complete msg then .message msg (c :: cs)
    else if c = [] then .reset
    else if c = endMark then .message msg cs
    else receive (msg ++ c) cs

/-- What `CSocket.send` (csocket.py 45-50) gives to the socket, if `send` takes everything. -/
def request {V : Type} (codec : Codec V) (v : V) : Option Bytes := (codec.dumps v).map (· ++ endMark)

end Framing

end Verif
