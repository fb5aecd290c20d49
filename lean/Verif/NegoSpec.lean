import Verif.Bytes
/-!
# Specification of the option phase

What doc/proto.md says option requests and replies look like on the wire. Independent of the model.
-/

set_option autoImplicit false

namespace Nbd.Spec

/-- An option request: magic `IHAVEOPT`, option, length, data. -/
def optRequest (opt : Nat) (data : List Byte) : List Byte :=
  toBE 8 0x49484156454F5054 ++ toBE 4 opt ++ toBE 4 data.length ++ data

/-- An option reply: magic, the option answered, reply type, length, data. -/
def optReply (opt type : Nat) (data : List Byte) : List Byte :=
  toBE 8 0x3e889045565a9 ++ toBE 4 opt ++ toBE 4 type ++ toBE 4 data.length ++ data

/-- The data of an INFO or GO option: name and requested kinds of information. -/
def infoData (name : List Byte) (requests : List Nat) : List Byte :=
  toBE 4 name.length ++ name ++ toBE 2 requests.length ++ requests.flatMap (toBE 2)

/-- The data of an export information reply: kind 0, size, transmission flags. -/
def infoExport (size flags : Nat) : List Byte := toBE 2 0 ++ toBE 8 size ++ toBE 2 flags

/-- The data of a list record: length of the name, name. -/
def listRecord (name : List Byte) : List Byte := toBE 4 name.length ++ name

end Nbd.Spec
