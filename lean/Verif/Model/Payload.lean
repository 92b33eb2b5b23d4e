/-
Model of distbench_payload.cc and of the Homa driver's message parsing
(protocol_driver_homa.cc:42-99).

Bytes are natural numbers below 256.  Memory is a byte list indexed from the start of the
buffer handed to the C++ function; pointers are `Int` offsets into it, so that pointers
before or past the buffer can be formed, but *reading* through such a pointer is the
distinct outcome `ub`.  A failed `CHECK` is the distinct outcome `crash`.
-/
namespace Distbench.Payload

/-- `*p` for a pointer `p` given as an offset into the buffer; `none` is an out-of-bounds read.
Code: distbench_payload.cc:34-57. -/
def memAt (mem : List Nat) (i : Int) : Option Nat :=
  if 0 ≤ i then mem[i.toNat]? else none

/-- Outcome of `ReadVarInt`: out-of-bounds read, `return false`, or `return true` with the value
(as the unsigned 64-bit pattern of the `int64_t`) and the new cursor.
Code: distbench_payload.cc:34-57. -/
inductive ReadResult where
  | ub
  | fail
  | ok (value : Nat) (cursor : Int)
  deriving DecidableEq, Repr

/-- The do-while loop of `ReadVarInt`, distbench_payload.cc:40-45.
Returns the last byte read, the cursor and the accumulated value; `none` is an out-of-bounds read.
`(byte & 0x7f) << bits` is a `uint64_t` shift, hence the reduction modulo `2^64`. -/
def readLoop (mem : List Nat) (endp : Int) (cursor : Int) (bits ret : Nat) :
    Option (Nat × Int × Nat) :=
  match memAt mem cursor with
  | none => none
  | some c =>
    let byte := c &&& 0xff
    let ret' := ret ||| ((byte &&& 0x7f) <<< bits) % 2 ^ 64
    if _h : byte ≥ 128 ∧ bits + 7 < 64 ∧ cursor + 1 ≤ endp then
      readLoop mem endp (cursor + 1) (bits + 7) ret'
    else
      some (byte, cursor + 1, ret')
termination_by 64 - bits

/-- `ReadVarInt`, distbench_payload.cc:34-57.  `endp` is the inclusive end pointer. -/
def readVarInt (mem : List Nat) (start endp : Int) : ReadResult :=
  if start > endp then .fail
  else
    match readLoop mem endp start 0 0 with
    | none => .ub
    | some (byte, cursor, ret) =>
      if cursor - start > 10 then .fail
      else if byte ≥ 128 then .fail
      else .ok ret cursor

/-- `VarIntSize`, distbench_payload.cc:59-66 (argument `< 2^64` in the code). -/
def varIntSize (val : Nat) : Nat :=
  if _h : val ≥ 128 then varIntSize (val >>> 7) + 1 else 1
termination_by val
decreasing_by
  simp only [Nat.shiftRight_eq_div_pow]; omega

/-- `MakeVarInt`, distbench_payload.cc:186-200.  `*cursor = val | 0x80` stores the low 8 bits.
The 10-byte scratch string never overflows for a 64-bit argument (theorem C01). -/
def makeVarInt (val : Nat) : List Nat :=
  if _h : val > 127 then ((val ||| 0x80) % 256) :: makeVarInt (val >>> 7)
  else [val % 256]
termination_by val
decreasing_by
  simp only [Nat.shiftRight_eq_div_pow]; omega

/-- The `int64_t` whose two's complement pattern is `v`, for `v < 2^64`.
Code: distbench_payload.cc:34-57. -/
def asInt64 (v : Nat) : Int := if v < 2 ^ 63 then (v : Int) else (v : Int) - 2 ^ 64

/-- The two's complement 64-bit pattern of an `int64_t`.  Code: distbench_payload.cc:34-57. -/
def ofInt64 (i : Int) : Nat := (i % 2 ^ 64).toNat

/-- Outcome of `MetaDataLength`.  Code: distbench_payload.cc:68-127. -/
inductive MetaResult where
  | ub
  | crash
  | ret (length : Nat) (payloadOffset : Option Nat)
  deriving DecidableEq, Repr

/-- distbench_payload.cc:32 `kPayloadField`. -/
def kPayloadField : Int := 0xf

/-- The while loop and final `CHECK_EQ` of `MetaDataLength`, distbench_payload.cc:72-126.
`fuel` bounds the number of loop iterations; `none` means the loop is still running, so the C++
call returns iff some fuel gives `some`.  (Negative lengths move the cursor backwards in the code,
so the loop need not terminate.)  Pointer overflow of `cursor += value` is not modelled. -/
def metaLoop (mem : List Nat) (originalLength : Nat) : Nat → Int → Option MetaResult
  | 0, _ => none
  | fuel + 1, cursor =>
    let endp : Int := (mem.length : Int) - 1
    if cursor ≤ endp then
      let fieldStart := cursor
      match readVarInt mem cursor endp with
      | .ub => some .ub
      | .fail => some (.ret originalLength none)
      | .ok tagBits cursor =>
        let tag := asInt64 tagBits
        let fieldId := tag / 8            -- `tag >> 3`, arithmetic shift
        let type := tagBits % 8           -- `tag & 0x7`
        if type = 0 then
          match readVarInt mem cursor endp with
          | .ub => some .ub
          | .fail => some (.ret originalLength none)
          | .ok _ cursor => metaLoop mem originalLength fuel cursor
        else if type = 2 then
          match readVarInt mem cursor endp with
          | .ub => some .ub
          | .fail => some (.ret originalLength none)
          | .ok valueBits cursor =>
            let value := asInt64 valueBits
            let cursor := cursor + value
            if fieldId = kPayloadField then
              if endp ≤ cursor then
                some (.ret fieldStart.toNat (some (cursor - value).toNat))
              else some (.ret originalLength none)
            else metaLoop mem originalLength fuel cursor
        else if type = 3 ∨ type = 4 then metaLoop mem originalLength fuel (cursor + 0)
        else if type = 1 then metaLoop mem originalLength fuel (cursor + 8)
        else if type = 5 then metaLoop mem originalLength fuel (cursor + 4)
        else some (.ret originalLength none)
    else if cursor - endp = 0 then some (.ret originalLength none)   -- CHECK_EQ(cursor - end, 0)
    else some .crash

/-- `MetaDataLength(msg_fragment, original_length, &offset)`, distbench_payload.cc:68-127:
`MetaDataLength frag n r` says the call returns (or aborts) with outcome `r`. -/
def MetaDataLength (frag : List Nat) (originalLength : Nat) (r : MetaResult) : Prop :=
  ∃ fuel, metaLoop frag originalLength fuel 0 = some r

/-! ### The GenericRequestResponse message and the protobuf wire format -/

/-- `GenericRequestResponse`, distbench.proto:287-335.  The nested `trace_context` message is
represented by its serialized bytes (its own structure does not matter here). -/
structure Msg where
  rpcIndex : Option Int := none                -- 1, int32
  traceContext : Option (List Nat) := none     -- 2, message
  warmup : Option Bool := none                 -- 3
  responsePayloadSize : Option Int := none     -- 4, int64
  serverProcessingTimeNs : Option Int := none  -- 5, int64
  errorMessage : Option (List Nat) := none     -- 9, string
  serverInstance : Option Int := none          -- 10, int32
  beforePayload32 : Option Nat := none         -- 12, fixed32
  beforePayload64 : Option Nat := none         -- 13, fixed64
  trim : Option Bool := none                   -- 14
  payload : Option (List Nat) := none          -- 15, bytes
  afterPayload32 : Option Nat := none          -- 16, fixed32
  afterPayload64 : Option Nat := none          -- 17, fixed64
  deriving DecidableEq, Repr, Inhabited

/-- A field on the wire: field number and content.
Code: distbench_payload.cc:68-127; distbench.proto:287-335. -/
inductive WireField where
  | varint (id : Nat) (v : Nat)
  | fixed64 (id : Nat) (v : Nat)
  | bytes (id : Nat) (b : List Nat)
  | fixed32 (id : Nat) (v : Nat)
  deriving DecidableEq, Repr

/-- Little-endian encoding in `n` bytes (protobuf fixed32/fixed64).
Code: distbench_payload.cc:202-214. -/
def leBytes : Nat → Nat → List Nat
  | 0, _ => []
  | n + 1, v => v % 256 :: leBytes n (v / 256)

/-- protobuf encoding of one field (protobuf runtime, wire-format specification).
Code: distbench_payload.cc:202-214. -/
def encodeField : WireField → List Nat
  | .varint id v => makeVarInt (id * 8 + 0) ++ makeVarInt v
  | .fixed64 id v => makeVarInt (id * 8 + 1) ++ leBytes 8 v
  | .bytes id b => makeVarInt (id * 8 + 2) ++ (makeVarInt b.length ++ b)
  | .fixed32 id v => makeVarInt (id * 8 + 5) ++ leBytes 4 v

/-- Bool as varint.  Code: distbench_payload.cc:202-214. -/
def boolVal (b : Bool) : Nat := if b then 1 else 0

/-- The fields present in a message, in the ascending field-number order in which the protobuf
runtime serializes them (distbench.proto:287-335). -/
def fieldsOf (m : Msg) : List WireField :=
  (m.rpcIndex.map (fun i => WireField.varint 1 (ofInt64 i))).toList ++
  (m.traceContext.map (fun b => WireField.bytes 2 b)).toList ++
  (m.warmup.map (fun b => WireField.varint 3 (boolVal b))).toList ++
  (m.responsePayloadSize.map (fun i => WireField.varint 4 (ofInt64 i))).toList ++
  (m.serverProcessingTimeNs.map (fun i => WireField.varint 5 (ofInt64 i))).toList ++
  (m.errorMessage.map (fun b => WireField.bytes 9 b)).toList ++
  (m.serverInstance.map (fun i => WireField.varint 10 (ofInt64 i))).toList ++
  (m.beforePayload32.map (fun v => WireField.fixed32 12 v)).toList ++
  (m.beforePayload64.map (fun v => WireField.fixed64 13 v)).toList ++
  (m.trim.map (fun b => WireField.varint 14 (boolVal b))).toList ++
  (m.payload.map (fun b => WireField.bytes 15 b)).toList ++
  (m.afterPayload32.map (fun v => WireField.fixed32 16 v)).toList ++
  (m.afterPayload64.map (fun v => WireField.fixed64 17 v)).toList

/-- `msg.SerializeAsString()` (protobuf runtime).  Code: distbench_payload.cc:202-214. -/
def serialize (m : Msg) : List Nat := (fieldsOf m).flatMap encodeField

/-- `msg.ByteSizeLong()` (protobuf runtime).  Code: distbench_payload.cc:129-169. -/
def byteSize (m : Msg) : Nat := (serialize m).length

/-- `GetPaddingForSerializedSize`, distbench_payload.cc:129-169; returns the padding and the
message as modified in place.  `size_t`/`ssize_t` are `Nat`/`Int` (sizes below `2^63`). -/
def getPaddingForSerializedSize (msg : Msg) (targetSize : Nat) : Nat × Msg :=
  if targetSize = byteSize msg then (0, msg)
  else
    let msg := { msg with payload := none }
    let msg := { msg with trim := none }
    if targetSize ≤ byteSize msg then (0, msg)
    else
      let msg := { msg with payload := some [] }
      let startSize := byteSize msg
      if startSize ≥ targetSize then (0, msg)
      else
        let pad : Int := (targetSize : Int) - startSize
        let fieldLengthDelta : Int := (varIntSize pad.toNat : Int) - varIntSize 0
        if fieldLengthDelta > 0 then
          let newPad := pad - fieldLengthDelta
          let fieldLengthDelta2 : Int := (varIntSize pad.toNat : Int) - varIntSize newPad.toNat
          if fieldLengthDelta2 > 0 then
            let newPad := newPad + fieldLengthDelta2
            let msg := { msg with trim := some false }
            let newPad := newPad - 2
            (newPad.toNat, msg)
          else (newPad.toNat, msg)
        else (pad.toNat, msg)

/-- `PayloadAllocator::AllocPayloadCord`, distbench_payload.cc:171-176 (`'D'` = 68). -/
def allocPayloadCord (size : Nat) : List Nat := List.replicate size 68

/-- `PayloadAllocator::AddPadding`, distbench_payload.cc:178-184. -/
def addPadding (msg : Msg) (targetSize : Nat) : Msg :=
  let (padding, msg) := getPaddingForSerializedSize msg targetSize
  if padding > 0 then { msg with payload := some (allocPayloadCord padding) } else msg

/-- `SerializeToCord`, distbench_payload.cc:202-214. -/
def serializeToCord (m : Msg) (avoidCopy : Bool) : List Nat :=
  match avoidCopy, m.payload with
  | true, some p =>
    let copy := { m with payload := none }
    serialize copy ++ makeVarInt (15 * 8 + 2) ++ makeVarInt p.length ++ p
  | _, _ => serialize m

/-! ### protobuf parsing (runtime behaviour, used by the drivers and by the specifications) -/

/-- Decode one varint from the front of a byte string, protobuf style (at most 10 bytes).
Code: protocol_driver_homa.cc:46-105. -/
def parseVarint : Nat → List Nat → Option (Nat × List Nat)
  | 0, _ => none
  | _ + 1, [] => none
  | fuel + 1, b :: rest =>
    if b < 128 then some (b, rest)
    else
      match parseVarint fuel rest with
      | none => none
      | some (v, rest') => some ((b - 128) + 128 * v, rest')

/-- Little-endian number.  Code: protocol_driver_homa.cc:46-105. -/
def fromLe : List Nat → Nat
  | [] => 0
  | b :: bs => b + 256 * fromLe bs

/-- Parse one field from the front of a byte string.  Code: protocol_driver_homa.cc:46-105. -/
def parseField (bs : List Nat) : Option (WireField × List Nat) :=
  match parseVarint 10 bs with
  | none => none
  | some (tag, bs) =>
    if tag / 8 = 0 then none
    else if tag % 8 = 0 then
      match parseVarint 10 bs with
      | none => none
      | some (v, bs) => some (.varint (tag / 8) (v % 2 ^ 64), bs)
    else if tag % 8 = 1 then
      if bs.length < 8 then none else some (.fixed64 (tag / 8) (fromLe (bs.take 8)), bs.drop 8)
    else if tag % 8 = 2 then
      match parseVarint 10 bs with
      | none => none
      | some (n, bs) =>
        if bs.length < n then none else some (.bytes (tag / 8) (bs.take n), bs.drop n)
    else if tag % 8 = 5 then
      if bs.length < 4 then none else some (.fixed32 (tag / 8) (fromLe (bs.take 4)), bs.drop 4)
    else none

/-- Parse a whole byte string into fields; fuel is the number of bytes.
Code: protocol_driver_homa.cc:46-105. -/
def parseFieldsAux : Nat → List Nat → Option (List WireField)
  | _, [] => some []
  | 0, _ :: _ => none
  | fuel + 1, b :: bs =>
    match parseField (b :: bs) with
    | none => none
    | some (f, rest) =>
      match parseFieldsAux fuel rest with
      | none => none
      | some fs => some (f :: fs)

/-- The `int32` stored by the runtime when it reads the varint `v` into an int32 field.
Code: protocol_driver_homa.cc:46-105; distbench.proto:287-335. -/
def asInt32 (v : Nat) : Int :=
  if v % 2 ^ 32 < 2 ^ 31 then ((v % 2 ^ 32 : Nat) : Int) else ((v % 2 ^ 32 : Nat) : Int) - 2 ^ 32

/-- Store one parsed field into the message (the last occurrence of a field wins; unknown fields
are dropped; repeated occurrences of the nested message are not merged: simplification).
Code: protocol_driver_homa.cc:46-105; distbench.proto:287-335. -/
def setField (m : Msg) : WireField → Msg
  | .varint 1 v => { m with rpcIndex := some (asInt32 v) }
  | .bytes 2 b => { m with traceContext := some b }
  | .varint 3 v => { m with warmup := some (v != 0) }
  | .varint 4 v => { m with responsePayloadSize := some (asInt64 v) }
  | .varint 5 v => { m with serverProcessingTimeNs := some (asInt64 v) }
  | .bytes 9 b => { m with errorMessage := some b }
  | .varint 10 v => { m with serverInstance := some (asInt32 v) }
  | .fixed32 12 v => { m with beforePayload32 := some v }
  | .fixed64 13 v => { m with beforePayload64 := some v }
  | .varint 14 v => { m with trim := some (v != 0) }
  | .bytes 15 b => { m with payload := some b }
  | .fixed32 16 v => { m with afterPayload32 := some v }
  | .fixed64 17 v => { m with afterPayload64 := some v }
  | _ => m

/-- `msg.ParseFromArray(bytes)` (protobuf runtime).  Code: protocol_driver_homa.cc:46-105. -/
def parse (bs : List Nat) : Option Msg :=
  (parseFieldsAux bs.length bs).map (fun fs => fs.foldl setField {})

/-- Values a C++ message object can hold: field ranges, byte ranges, and sizes below 2 GiB
(the protobuf limit).  Code: distbench.proto:287-335 (`GenericRequestResponse`). -/
def Msg.WF (m : Msg) : Prop :=
  (∀ i, m.rpcIndex = some i → -2 ^ 31 ≤ i ∧ i < 2 ^ 31) ∧
  (∀ i, m.serverInstance = some i → -2 ^ 31 ≤ i ∧ i < 2 ^ 31) ∧
  (∀ i, m.responsePayloadSize = some i → -2 ^ 63 ≤ i ∧ i < 2 ^ 63) ∧
  (∀ i, m.serverProcessingTimeNs = some i → -2 ^ 63 ≤ i ∧ i < 2 ^ 63) ∧
  (∀ v, m.beforePayload32 = some v → v < 2 ^ 32) ∧
  (∀ v, m.beforePayload64 = some v → v < 2 ^ 64) ∧
  (∀ v, m.afterPayload32 = some v → v < 2 ^ 32) ∧
  (∀ v, m.afterPayload64 = some v → v < 2 ^ 64) ∧
  (∀ b, m.traceContext = some b → b.length < 2 ^ 31 ∧ ∀ x ∈ b, x < 256) ∧
  (∀ b, m.errorMessage = some b → b.length < 2 ^ 31 ∧ ∀ x ∈ b, x < 256) ∧
  (∀ b, m.payload = some b → b.length < 2 ^ 31 ∧ ∀ x ∈ b, x < 256)

/-! ### Homa receive path -/

/-- `homa::receiver::contiguous(offset)`: bytes available contiguously at `offset` of a message
of length `len` stored in pages of `page` bytes (Homa kernel module contract).
Code: protocol_driver_homa.cc:42-105. -/
def contiguous (page len offset : Nat) : Nat := min (page - offset % page) (len - offset)

/-- The chunk loop of `FastParse`, protocol_driver_homa.cc:75-84: at most `n` chunks are appended;
the payload is set only if the end of the message is reached. -/
def collectChunks (page : Nat) (msg : List Nat) : Nat → Nat → List Nat → Option (List Nat)
  | 0, _, _ => none
  | n + 1, offset, acc =>
    let c := contiguous page msg.length offset
    let acc := acc ++ (msg.drop offset).take c
    let offset := offset + c
    if offset = msg.length then some acc else collectChunks page msg n offset acc

/-- Outcome of parsing a received Homa message.  Code: protocol_driver_homa.cc:56-90. -/
inductive FastParseResult where
  | ub
  | crash
  | parsed (ok : Bool) (m : Msg)
  | slow
  deriving DecidableEq, Repr

/-- `FastParse`, protocol_driver_homa.cc:56-90, on a received message `msg` stored in pages.
`maxPages` is HOMA_MAX_BPAGES.  A failed `ParseFromArray` leaves an unspecified message; the model
uses the default message.  `FastParse page maxPages msg r`: the call ends with outcome `r`. -/
def FastParse (page maxPages : Nat) (msg : List Nat) (r : FastParseResult) : Prop :=
  let initial := msg.take (contiguous page msg.length 0)
  if initial.length = 1 ∧ initial.head? = some 7 then r = .parsed true {}
  else if msg.length ≤ 4096 ∧ initial.length = msg.length then
    r = .parsed (parse initial).isSome ((parse initial).getD {})
  else
    ∃ mr, MetaDataLength initial msg.length mr ∧
      match mr with
      | .ub => r = .ub
      | .crash => r = .crash
      | .ret metadataLength off =>
        if metadataLength ≤ initial.length then
          let offset := off.getD 0
          let out := (parse (initial.take metadataLength)).getD {}
          let ok := (parse (initial.take metadataLength)).isSome
          match collectChunks page msg maxPages offset [] with
          | some payload => r = .parsed ok { out with payload := some payload }
          | none => r = .parsed ok out
        else r = .slow

end Distbench.Payload
