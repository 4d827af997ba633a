import Verif.Model.LasWriter

/-!
# Flushing a LAZ writer: the stream below the compressor

`pasture-io/src/las/raw_writers.rs:1125-1152, 701-706`. What the compressor of the `laz` crate writes when it is told that
it is done is a parameter.
-/

namespace Pasture.Las

/-- `RawLAZWriter` with the stream that its compressor writes to (`self.writer.get_mut()`) and the extended VLRs. -/
structure LazFile where
  writer : RawLazWriter
  stream : Stream
  evlrs : Bytes

namespace LazFile

/-- `write_header`, raw_writers.rs:1125-1136. -/
def writeHeader (encode : LasHeader → Bytes) (f : LazFile) : LazFile :=
  let header := f.writer.header.finalize
  { f with writer := { f.writer with header }
           stream := ((f.stream.seek 0).write (encode header)).seek f.stream.pos }

/-- `write_evlrs`, raw_writers.rs:1139-1146. -/
def writeEvlrs (f : LazFile) : LazFile := { f with stream := f.stream.write f.evlrs }

/-- `do_flush`, raw_writers.rs:1148-1152, which is `flush` (1164-1166). `done` is what `self.writer.done()` does to the
    stream. -/
def flush (done : Stream → Stream) (encode : LasHeader → Bytes) (f : LazFile) : LazFile :=
  ({ f with stream := done f.stream }.writeEvlrs).writeHeader encode

/-- `into_inner`, raw_writers.rs:701-706: the stream after another flush. -/
def intoInner (done : Stream → Stream) (encode : LasHeader → Bytes) (f : LazFile) : Stream :=
  (f.flush done encode).stream

end LazFile

end Pasture.Las
