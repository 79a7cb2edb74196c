import Verif.Model.CombineDriver
/-
What a user may conclude from the end of a run of mppnccombine.
-/
namespace Verif.Spec
open Verif.Driver

variable {F : Type}

/-- In block `b`, file `x` was read into the output and no error was reported for it. -/
def Combined (r : Run F) (b : Nat) (x : F) : Prop :=
  ∃ failed, Event.proc b x 0 failed ∈ r.trace

/-- Number of failed output operations of a run, `ncsync` and `ncclose` included. -/
def outFailures (E : Env F) (r : Run F) : Nat :=
  (r.trace.filter fun e => match e with | .flush true => true | _ => false).length
    + (if E.syncErr then 1 else 0) + (if E.closeErr then 1 else 0)

/-- No error occurred: nothing went wrong inside any `process_file`, no output operation failed. -/
def NoErrors (E : Env F) (r : Run F) : Prop :=
  (∀ b x rc failed, Event.proc b x rc failed ∈ r.trace → failed = false) ∧ outFailures E r = 0

end Verif.Spec
