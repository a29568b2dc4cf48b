/-!
# Common vocabulary of the yac model

Failure outcomes of the C++ code.  A model function that can fail returns
`Except Fault α`; undefined behaviour is a distinct outcome, never a default
value.
-/

namespace Yac

/-- Ways in which a call may fail to return a value.
* `fatal`   – the `FATAL`/`FATAL_ASSERT` macros (yac/lib/util/core.hpp:195-216, which
              throw `std::runtime_error`) or a failed `assert` (abort; in a build with
              `NDEBUG` the code would go on into undefined behaviour);
* `oob`     – read or write outside a buffer (undefined behaviour);
* `uninit`  – use of an uninitialised value (undefined behaviour);
* `exn`     – an uncaught C++ exception such as `std::out_of_range`;
* `divZero` – integer division or remainder by zero (undefined behaviour);
* `diverge` – the loop did not end within the given number of iterations. -/
inductive Fault where
  | fatal | oob | uninit | exn | divZero | diverge
  deriving DecidableEq, Repr

instance {ε α : Type} [DecidableEq ε] [DecidableEq α] : DecidableEq (Except ε α)
  | .ok a, .ok b => if h : a = b then isTrue (by rw [h]) else isFalse (by simpa using h)
  | .error a, .error b => if h : a = b then isTrue (by rw [h]) else isFalse (by simpa using h)
  | .ok _, .error _ => isFalse (by simp)
  | .error _, .ok _ => isFalse (by simp)

end Yac
