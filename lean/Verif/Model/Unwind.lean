import Verif.Model.Core
/-
Panics that are caught. /repo itself never catches one; a caller may (`std::panic::catch_unwind`, or joining a thread that panicked) and go on with the memory as the panic left it.
-/
namespace Simd

/-- `std::panic::catch_unwind(|| p)`: a panic becomes the value `none`, with the memory of that moment.
Simplification: unwinding drops no local value; the functions of /repo own none when they panic, see C88 (nothing has been allocated). -/
def Prog.catch_unwind {α : Type} : Prog α → Prog (Option α)
  | .pure a => .pure (some a)
  | .err => .err
  | .panic => .pure none
  | .ub => .ub
  | .load p n k => .load p n (fun bs => (k bs).catch_unwind)
  | .store p bs k => .store p bs k.catch_unwind
  | .chk p k => .chk p k.catch_unwind
  | .alloc n k => .alloc n (fun b => (k b).catch_unwind)

end Simd
