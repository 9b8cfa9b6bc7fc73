import Verif.LogStore.Spec

/-!
# A store that has been closed

Model of `fs_log_store::close` (fs_log_store.cxx 852-857), and of calls after it.
-/

namespace Cs.LogStore
open Cs Cs.Buffer

/-- `close` of a stream. Simplification: in the code the first operation on a closed stream makes it a failed one, here `close` does. The
difference is seen by calls that look at the state of the streams before they use them: `entry_at` (lines 458-461) and `pack` (lines 523-526)
of entries behind the log return nothing in the code, and throw here, until another call has used the streams. -/
def File.closed (f : File) : File := { f with bad := true }

/-- `fs_log_store::close`, fs_log_store.cxx 852-857. What has been written is in the files: every call flushes the streams it wrote to. -/
def close : M Store Unit := modify fun s => { s with idx := s.idx.closed, dat := s.dat.closed, sti := s.sti.closed }

/-- The state after some calls, whatever they return and throw. -/
def callAll : List Op → Store → Store
  | [], s => s
  | op :: ops, s => callAll ops (op.run s).2

end Cs.LogStore
