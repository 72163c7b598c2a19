import Verif.AsyncMem.Model
import Verif.RecordBuf.Spec
import Verif.Ring.Spec

/-! # The asynchronous sink with the memory of its records: vocabulary of the statements -/

namespace Blackhole.AsyncMem

/-- What the wrapped sink has to see of a call: the record as it was when the call was made, with its attributes in one list
and the lazy ones replaced by what they printed in the call (`RecordBuf.owned`), and the message. -/
def Call.value (e : Call) : Root.Rec × Str := (RecordBuf.owned e.eval e.contents, e.text)

end Blackhole.AsyncMem
