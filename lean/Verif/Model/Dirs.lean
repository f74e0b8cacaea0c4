import Verif.Model.Server
import Verif.Model.Mime

/-! # dirs.c: reading a directory -/

set_option autoImplicit false

namespace Gmid

/-- dirs.c:149-153, select_non_dot -/
def selectNonDot (d : Dirent) : Bool := strcmp d.name b%"." != .eq

/-- dirs.c:155-159, select_non_dotdot -/
def selectNonDotdot (d : Dirent) : Bool := strcmp d.name b%"." != .eq && strcmp d.name b%".." != .eq

/-- dirs.c:97-136, the readdir(3) loop.  `names` are the entries stored so far (the array has room
for `arraysz`; a store beyond it is undefined); `alloc n` is whether an array of `n` pointers can be
had; SIZE_MAX / sizeof(pointer) is 2^61 - 1.  The copies of the entries (malloc) succeed, as does
the second fstat(2). -/
def scandirLoop (alloc : Nat → Bool) (sel : Dirent → Bool) : List Dirent → List Dirent → Nat → Res (List Dirent)
  | [], names, _ => .ok names
  | d :: r, names, arraysz =>
    if !sel d then scandirLoop alloc sel r names arraysz
    else if names.length ≥ arraysz then
      if 2 ^ 61 - 1 < arraysz * 2 then .err
      else if !alloc (arraysz * 2) then .err
      else if names.length < arraysz * 2 then scandirLoop alloc sel r (names ++ [d]) (arraysz * 2) else .ub
    else scandirLoop alloc sel r (names ++ [d]) arraysz

/-- dirs.c:69-147, scandir_fd on a directory whose entries are `entries`, in that order, and whose
st_size is `size`; `sort` is qsort(3) with alphasort(3).  fdopendir and fstat succeed. -/
def scandirFd (alloc : Nat → Bool) (sort : List Dirent → List Dirent) (size : Nat) (entries : List Dirent)
    (sel : Dirent → Bool) : Res (List Dirent) :=
  let arraysz := max (size / 24) 16
  if 2 ^ 61 - 1 < arraysz then .err
  else if !alloc arraysz then .err
  else
    match scandirLoop alloc sel entries [] arraysz with
    | .ok names => .ok (if names = [] then names else sort names)
    | .err => .err
    | .ub => .ub

end Gmid
