/-!
# Messages on the wire

`crates/abq_utils/src/net_protocol.rs:930-1363`: framing, compression of large messages, the blocking reader, the
incremental asynchronous reader and byte streams.

Bytes are natural numbers. The serialization of messages (serde_json) and gzip are parameters, with the law that
decoding undoes encoding; nothing else is assumed of them. A connection is the list of bytes the peer has written or
will write and that are not yet read; how many of them each `read` delivers, and when, is up to the schedule.
-/

namespace Abq.Wire

/-- The elements of the buffers of `net_protocol.rs:959-1362`. -/
abbrev Byte := Nat

/-- serde_json (`to_vec` net_protocol.rs:1354, `from_slice` net_protocol.rs:983, net_protocol.rs:1175-1177) and gzip (`gz_decode` net_protocol.rs:942-946, `gz_encode` net_protocol.rs:948-954).
Encoding is taken never to fail. -/
structure Codec (T : Type) where
  toVec : T → List Byte
  fromSlice : List Byte → Option T
  gzip : List Byte → List Byte
  gunzip : List Byte → Option (List Byte)

/-! ## 32-bit sizes

An `i32` is its two's-complement word, a number below `2 ^ 32`. -/

/-- `as i32` (net_protocol.rs:1030, net_protocol.rs:1271, net_protocol.rs:1310). -/
def asI32 (n : Nat) : Nat := n % 2 ^ 32

/-- `*= -1` (net_protocol.rs:1032, net_protocol.rs:1273), as in a release build. -/
def negI32 (w : Nat) : Nat := (2 ^ 32 - w) % 2 ^ 32

/-- `i32::is_negative` (net_protocol.rs:973, net_protocol.rs:1134). -/
def isNegative (w : Nat) : Bool := w ≥ 2 ^ 31

/-- `i32::unsigned_abs` (net_protocol.rs:974, net_protocol.rs:1134). -/
def unsignedAbs (w : Nat) : Nat := if isNegative w then 2 ^ 32 - w else w

/-- `i32::to_be_bytes` (net_protocol.rs:1034, net_protocol.rs:1275). -/
def toBeBytes (w : Nat) : List Byte := [w / 2 ^ 24, w / 2 ^ 16 % 2 ^ 8, w / 2 ^ 8 % 2 ^ 8, w % 2 ^ 8]

/-- `i32::from_be_bytes` (net_protocol.rs:972, net_protocol.rs:1133). -/
def fromBeBytes (bs : List Byte) : Nat := bs.foldl (fun w b => w * 2 ^ 8 + b) 0

/-! ## Writing -/

/-- net_protocol.rs:933 `LARGE_MESSAGE_SIZE`. -/
def largeMessageSize : Nat := 1000000

/-- net_protocol.rs:1349-1362 `write_message_bytes_help`. -/
def messageBytes {T : Type} (c : Codec T) (compressLarge : Bool) (maxSize : Nat) (msg : T) : List Byte × Bool :=
  let json := c.toVec msg
  if compressLarge && decide (json.length > maxSize) then (c.gzip json, true) else (json, false)

/-- net_protocol.rs:1026-1047 `write` (with `compressLarge`) and net_protocol.rs:1260-1294 `async_write_help`: the bytes put on the connection. -/
def frame {T : Type} (c : Codec T) (compressLarge : Bool) (msg : T) : List Byte :=
  let (bytes, compressed) := messageBytes c compressLarge largeMessageSize msg
  let size := asI32 bytes.length
  let size := if compressed then negI32 size else size
  toBeBytes size ++ bytes

/-! ## Reading

Both readers are machines that are fed by the connection. -/

/-- Errors of reading (net_protocol.rs:959-1023, net_protocol.rs:1106-1187). -/
inductive Err where
  | unexpectedEof
  | timedOut
  | invalidData
  | io
deriving DecidableEq, Repr

/-- net_protocol.rs:979-983, net_protocol.rs:1172-1178: turn the body into a message. -/
def decodeBody {T : Type} (c : Codec T) (needsDecompression : Bool) (body : List Byte) : Option T :=
  if needsDecompression then
    match c.gunzip body with
    | none => none
    | some b => c.fromSlice b
  else c.fromSlice body

/-- `MsgSize` (net_protocol.rs:1082-1085) is a pair of the size and whether to decompress. The fields of `AsyncReader`, net_protocol.rs:1069-1076:
`size_buf`, `msg_size`, `msg_buf`, `read`. The time of expiration is left to the schedule. -/
structure Reader where
  sizeBuf : List Byte
  msgSize : Option (Nat × Bool)
  msgBuf : List Byte
  read : Nat
deriving DecidableEq, Repr

/-- net_protocol.rs:1094-1103 `new`. -/
def Reader.new : Reader := ⟨[0, 0, 0, 0], none, [], 0⟩

/-- net_protocol.rs:1147-1151 the top of the loop in `next` when the size is known: the message buffer is extended by the size if
nothing of the body has been read. This is run whenever the loop starts over and whenever `next` is called. -/
def Reader.top (r : Reader) : Reader :=
  match r.msgSize with
  | none => r
  | some (size, _) => if r.read = 0 then { r with msgBuf := r.msgBuf ++ List.replicate size 0 } else r

/-- Length of the buffer passed to `reader.read`: `size_buf[read..]` (net_protocol.rs:1125) or `msg_buf[read..]` (net_protocol.rs:1160). -/
def Reader.want (r : Reader) : Nat :=
  match r.msgSize with
  | none => 4 - r.read
  | some _ => r.msgBuf.length - r.read

/-- What came of one `read` (net_protocol.rs:1125-1187). -/
inductive Out (T : Type) where
  | more
  | message (msg : T) (size : Nat)
  | failed (e : Err)
deriving DecidableEq, Repr

/-- Overwrites `l` from position `i` with `bs` (`read` at net_protocol.rs:1125, net_protocol.rs:1160). -/
def overwrite (l : List Byte) (i : Nat) (bs : List Byte) : List Byte := l.take i ++ bs ++ l.drop (i + bs.length)

/-- net_protocol.rs:1125-1141 and net_protocol.rs:1160-1187: the `read` returned `bs`, up to the top of the loop or the return. -/
def Reader.got {T : Type} (c : Codec T) (r : Reader) (bs : List Byte) : Reader × Out T :=
  match r.msgSize with
  | none =>
    if bs.length = 0 then (r, .failed .unexpectedEof)
    else
      let r := { r with sizeBuf := overwrite r.sizeBuf r.read bs, read := r.read + bs.length }
      if r.read = 4 then
        let raw := fromBeBytes r.sizeBuf
        ({ r with read := 0, msgSize := some (unsignedAbs raw, isNegative raw) }.top, .more)
      else (r, .more)
  | some (size, needsDecompression) =>
    let r := { r with msgBuf := overwrite r.msgBuf r.read bs, read := r.read + bs.length }
    if r.read = size then
      match decodeBody c needsDecompression r.msgBuf with
      | none => (r, .failed .invalidData)
      | some msg => ({ r with msgSize := none, read := 0, msgBuf := [] }, .message msg size)
    else (r.top, .more)

/-- A connection with someone who calls `next` again and again (net_protocol.rs:1106-1187). -/
structure Conn (T : Type) where
  reader : Reader
  /-- bytes not yet read -/
  stream : List Byte
  /-- what the completed calls of `next` returned -/
  out : List (T × Nat)
  err : Option Err
deriving DecidableEq, Repr

/-- The steps of a caller of `next` (net_protocol.rs:1106-1187) and of the network. -/
inductive Act where
  /-- the pending `read` completes with up to `k` bytes -/
  | read (k : Nat)
  /-- the pending `read` reports the end of the stream; possible only when all was read -/
  | eof
  /-- the pending `read` fails -/
  | ioError
  /-- the timer of net_protocol.rs:1163 fires -/
  | expire
  /-- the future of `next` is dropped, and `next` called again -/
  | cancel
deriving DecidableEq, Repr

/-- net_protocol.rs:1094-1103, with what will arrive. -/
def Conn.new {T : Type} (stream : List Byte) : Conn T := ⟨Reader.new, stream, [], none⟩

/-- The result of `got`, recorded (net_protocol.rs:1125-1187). -/
def Conn.record {T : Type} (s : Conn T) (r : Reader × Out T) : Conn T :=
  match r.2 with
  | .more => { s with reader := r.1 }
  | .message msg size => { s with reader := r.1, out := s.out ++ [(msg, size)] }
  | .failed e => { s with reader := r.1, err := some e }

/-- One step. After an error nothing more happens ("if errors, not resumable", net_protocol.rs:1110). A `read` into an empty buffer
completes at once with nothing; a `read` for which there is nothing is still pending. -/
def Conn.step {T : Type} (c : Codec T) (s : Conn T) : Act → Conn T
  | .read k =>
    if s.err.isSome then s
    else if s.reader.want = 0 then s.record (s.reader.got c [])
    else
      let bs := s.stream.take (min k s.reader.want)
      if bs.length = 0 then s
      else { s with stream := s.stream.drop (min k s.reader.want) }.record (s.reader.got c bs)
  | .eof => if s.err.isSome || !s.stream.isEmpty then s else s.record (s.reader.got c [])
  | .ioError => if s.err.isSome then s else { s with err := some .io }
  | .expire =>
    if s.err.isSome then s
    else match s.reader.msgSize with
      | none => s
      | some _ => { s with err := some .timedOut }
  | .cancel => if s.err.isSome then s else { s with reader := s.reader.top }

/-- A schedule (net_protocol.rs:1106-1187). -/
def Conn.run {T : Type} (c : Codec T) (s : Conn T) (as : List Act) : Conn T := as.foldl (Conn.step c) s

/-! ## The blocking reader -/

/-- What a `Read::read` call may do (net_protocol.rs:1004-1013). -/
inductive Ev where
  | read (k : Nat)
  | eof
  | interrupted
  | wouldBlock
  | ioError
  /-- the time since the start exceeds the timeout at net_protocol.rs:998 -/
  | expire
deriving DecidableEq, Repr

/-- net_protocol.rs:987-1023 `read_exact_help`: reads `n` bytes; `got` is what it has. Returns what was read, the rest of the stream
and of the events; `none` if the events run out first. -/
def readExact (timeout : Bool) (n : Nat) (got stream : List Byte) :
    List Ev → Option (Except Err (List Byte) × List Byte × List Ev)
  | [] => if got.length = n then some (.ok got, stream, []) else none
  | ev :: evs =>
    if got.length = n then some (.ok got, stream, ev :: evs) else
    match ev with
    | .read k =>
      let m := min k (n - got.length)
      if (stream.take m).length = 0 then readExact timeout n got stream evs
      else readExact timeout n (got ++ stream.take m) (stream.drop m) evs
    | .eof => if stream = [] then some (.error .unexpectedEof, stream, evs) else readExact timeout n got stream evs
    | .interrupted => readExact timeout n got stream evs
    | .wouldBlock => readExact timeout n got stream evs
    | .ioError => some (.error .io, stream, evs)
    | .expire =>
      if timeout then some (.error .timedOut, stream, evs) else readExact timeout n got stream evs

/-- net_protocol.rs:959-985 `read`, `read_help`. -/
def readMsg {T : Type} (c : Codec T) (stream : List Byte) (evs : List Ev) :
    Option (Except Err T × List Byte × List Ev) :=
  match readExact false 4 [] stream evs with
  | none => none
  | some (.error e, stream, evs) => some (.error e, stream, evs)
  | some (.ok sizeBuf, stream, evs) =>
    let raw := fromBeBytes sizeBuf
    match readExact true (unsignedAbs raw) [] stream evs with
    | none => none
    | some (.error e, stream, evs) => some (.error e, stream, evs)
    | some (.ok body, stream, evs) =>
      match decodeBody c (isNegative raw) body with
      | none => some (.error .invalidData, stream, evs)
      | some msg => some (.ok msg, stream, evs)

/-! ## Byte streams -/

/-- net_protocol.rs:1301-1326 `async_write_stream`: the size, then the whole stream. -/
def streamBytes (streamLength : Nat) (bytes : List Byte) : List Byte := toBeBytes (asI32 streamLength) ++ bytes

/-- net_protocol.rs:1333-1346 `async_read_stream`, read to its end: the bytes got and what is left on the connection; `none` if the
connection ends within the size. A connection that ends within the bytes is not noticed. -/
def readStream (conn : List Byte) : Option (List Byte × List Byte) :=
  if conn.length < 4 then none
  else
    let size := fromBeBytes (conn.take 4)
    some ((conn.drop 4).take size, (conn.drop 4).drop size)

end Abq.Wire
