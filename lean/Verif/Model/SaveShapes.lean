import Verif.Model.Loop

/-!
# The shapes of the saved output

The buffers for saved values have fixed sizes, and all calls of `_save` (`diffrax/_integrate.py` 244-275) are traced
before the solve starts, whether or not their values are used. A call that writes more values than its buffer has
places fails then: `lax.dynamic_update_slice_in_dim` refuses it with a `TypeError` about shapes. This file models which
calls are traced for a `SubSaveAt`: `save_t0` (329-334), `_save_if_t0_equals_t1` (823-828, traced inside `lax.cond`
833-845) and `_save_t1` (847-875).

Simplified: `ts=None` and an empty `ts` are not told apart, as in `Model/Loop`. The writes of `save_ts` and `save_steps`
use `.at[...].set`, which does not fail.
-/

namespace Verif

variable {T Y O : Type}

/-- `pred is not False` at the end of `_save_t1` (850-871), where `root` tells whether there is an event with a root
finder. The Python constant `False` is told apart from an array: with `steps >= 2` it is always an array. -/
def saveT1Traced (root : Bool) (sub : SubSaveAt T Y O) : Bool :=
  match sub.steps with
  | 0 => sub.t1
  | 1 => root
  | _ => true

/-- The numbers of values written by the calls of `_save` that are traced for one `SubSaveAt`. -/
def tracedSaves (root : Bool) (sub : SubSaveAt T Y O) : List Nat :=
  (if sub.t0 then [1] else []) ++ (if sub.ts ≠ [] then [sub.ts.length] else []) ++
    (if saveT1Traced root sub then [1] else [])

/-- Does tracing work? Every write has to fit into the buffer allocated for it (1273-1303). -/
def traceOk (root : Bool) (maxSteps : Nat) (sub : SubSaveAt T Y O) : Bool :=
  (tracedSaves root sub).all fun rep => decide (rep ≤ allocSize maxSteps sub)

end Verif
