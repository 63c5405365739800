import Verif.Model.Rpc
import Verif.Model.Json
/-
`TJSONProtocol` as a protocol class for generated clients and processors.
-/

namespace Thrift

/-- `TJSONProtocol`, `TJSONProtocol.py:421-590`; `fuel` bounds the loops over the characters of a text. A decorated
copy shares the list `contextStack` and the `LookaheadReader`; its own attribute `context` is not shared. That of the
decorated object is assigned anew by the next `readMessageBegin` or `writeMessageBegin` (`resetReadContext`,
`resetWriteContext`, 194-200), so it is not kept apart here. -/
def Json.proto (py : Json.Floats) (cfg : Json.Cfg) (fuel : Nat) : Proto Json.St where
  rd := Json.rd py cfg fuel
  wr := Json.wr py
  readMessageBegin := Json.readMessageBegin cfg fuel
  readMessageEnd := Json.readMessageEnd
  writeMessageBegin := Json.writeMessageBegin
  writeMessageEnd := Json.writeMessageEnd
  share old new := { new with depth := old.depth }

end Thrift
