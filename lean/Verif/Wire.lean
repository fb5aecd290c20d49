import Verif.Bytes
/-!
# Requests and replies as the server's memory holds them
-/

namespace Nbd

/-! ### Constants of nbd.h -/
/-- nbd.h 67 `NBD_REQUEST_MAGIC`. -/
def REQUEST_MAGIC : UInt32 := 0x25609513
/-- nbd.h 68 `NBD_REPLY_MAGIC`. -/
def REPLY_MAGIC : UInt32 := 0x67446698
/-- nbd.h 69 `NBD_STRUCTURED_REPLY_MAGIC`. -/
def STRUCTURED_REPLY_MAGIC : UInt32 := 0x668e33ef
/-- nbd.h 33 `NBD_CMD_READ`. -/
def CMD_READ : Nat := 0
/-- nbd.h 34 `NBD_CMD_WRITE`. -/
def CMD_WRITE : Nat := 1
/-- nbd.h 35 `NBD_CMD_DISC`. -/
def CMD_DISC : Nat := 2
/-- nbd.h 36 `NBD_CMD_FLUSH`. -/
def CMD_FLUSH : Nat := 3
/-- nbd.h 37 `NBD_CMD_TRIM`. -/
def CMD_TRIM : Nat := 4
/-- nbd.h 38 `NBD_CMD_CACHE`. -/
def CMD_CACHE : Nat := 5
/-- nbd.h 39 `NBD_CMD_WRITE_ZEROES`. -/
def CMD_WRITE_ZEROES : Nat := 6
/-- nbd.h 40 `NBD_CMD_BLOCK_STATUS`. -/
def CMD_BLOCK_STATUS : Nat := 7
/-- nbd.h 41 `NBD_CMD_RESIZE`. -/
def CMD_RESIZE : Nat := 8
/-- nbd.h 44 `NBD_CMD_MASK_COMMAND`. -/
def CMD_MASK : Nat := 0xffff
/-- nbd.h 46 `NBD_CMD_FLAG_FUA`. -/
def CMD_FLAG_FUA : Nat := 65536
/-- nbd.h 47 `NBD_CMD_FLAG_NO_HOLE`. -/
def CMD_FLAG_NO_HOLE : Nat := 131072
/-- nbd.h 48 `NBD_CMD_FLAG_DF`. -/
def CMD_FLAG_DF : Nat := 262144
/-- nbd.h 84 `NBD_REPLY_FLAG_DONE`. -/
def REPLY_FLAG_DONE : UInt16 := 1
/-- nbd.h 76 `NBD_REPLY_TYPE_NONE`. -/
def REPLY_TYPE_NONE : UInt16 := 0
/-- nbd.h 77 `NBD_REPLY_TYPE_OFFSET_DATA`. -/
def REPLY_TYPE_OFFSET_DATA : UInt16 := 1
/-- nbd.h 81 `NBD_REPLY_TYPE_ERROR`. -/
def REPLY_TYPE_ERROR : UInt16 := 32769
/-- nbd.h 82 `NBD_REPLY_TYPE_ERROR_OFFSET`. -/
def REPLY_TYPE_ERROR_OFFSET : UInt16 := 32770
/-- nbd.h 129 `NBD_EOVERFLOW`. -/
def NBD_EOVERFLOW : UInt32 := 75

/-- nbd.h `struct nbd_request` after mainloop_threaded (nbd-server.c 3119-3121) converted
`type`, `from` and `len` to host order in place. `cookie` is never converted: it is the eight
bytes as received. `magic` stays as loaded from memory. -/
structure Req where
  magic : UInt32
  type : Nat
  cookie : List Byte
  start : Nat
  len : Nat
deriving DecidableEq, Repr

/-- nbd-server.c 3103 (28 bytes read straight into the packed struct) and 3119-3121. -/
def loadReq (e : Endian) (bs : List Byte) : Req where
  magic := load32 e (bs.take 4)
  type := (ntohl e (load32 e ((bs.drop 4).take 4))).toNat
  cookie := (bs.drop 8).take 8
  start := (ntohll e (load64 e ((bs.drop 16).take 8))).toNat
  len := (ntohl e (load32 e ((bs.drop 24).take 4))).toNat

/-- nbd-server.c 3123 `req->magic != htonl(NBD_REQUEST_MAGIC)`, negated. -/
def Req.magicOk (e : Endian) (r : Req) : Bool := r.magic == ntohl e REQUEST_MAGIC

/-- One message written to the client while holding `client->lock`: the reply struct (which is
also what the transaction log gets) and what follows it. nbd-server.c 1284-1343. -/
structure Msg where
  hdr : List Byte
  body : List Byte
deriving DecidableEq, Repr

/-- The bytes a message puts on the wire. nbd-server.c 402-408. -/
def Msg.bytes (m : Msg) : List Byte := m.hdr ++ m.body

/-- nbd-server.c 1284-1288 `setup_reply` followed by an optional `rep.error = error` and
`socket_write(&rep, sizeof rep)`: the 16 bytes of the packed struct. `error` is the value as
stored in the struct, i.e. already in network order. -/
def simpleHdr (e : Endian) (error : UInt32) (cookie : List Byte) : List Byte :=
  store32 e (ntohl e REPLY_MAGIC) ++ store32 e error ++ cookie

/-- nbd-server.c 1306-1323 `send_structured_chunk`, 1325-1343 `send_structured_chunk_v`. -/
def chunkMsg (e : Endian) (cookie : List Byte) (flags type : UInt16) (length : UInt32)
    (body : List Byte) : Msg where
  hdr := store32 e (ntohl e STRUCTURED_REPLY_MAGIC) ++ store16 e (ntohs e flags) ++
    store16 e (ntohs e type) ++ cookie ++ store32 e (ntohl e length)
  body := body

/-- nbd-server.c 2767-2786 `nbd_errno`: the value is already in network order. -/
def nbdErrno (e : Endian) (errcode : Nat) : UInt32 :=
  ntohl e (match errcode with
  | 1 => 1      -- EPERM
  | 5 => 5      -- EIO
  | 12 => 12    -- ENOMEM
  | 22 => 22    -- EINVAL
  | 27 => 28    -- EFBIG
  | 28 => 28    -- ENOSPC
  | 122 => 28   -- EDQUOT
  | _ => 22)

end Nbd
