import Verif.DynList.Model

/-! # `List.remove_all_from` -/

set_option autoImplicit false

namespace C3.DynList

variable {α : Type}

/-- `foreach (v : other_list) self.remove_item(v)`, list.c3 535, with another list: `n` iterations are left, the next one
reads at `i`. The length of `foreach` is computed once (src/compiler/sema_stmts.c 1610–1648); elements are read by
`List.@item_at`, list.c3 375–381, as `get` is. -/
def removeAllLoop (eq : α → α → Bool) (other : DList α) : Nat → Nat → DList α → Option (DList α)
  | 0, _, l => some l
  | n + 1, i, l => do
    let v ← get other i
    let (l', _) ← removeItem eq l v
    removeAllLoop eq other n (i + 1) l'

/-- `List.remove_all_from`, list.c3 528–536, with another list; not the annotations for the sanitizer. -/
def removeAllFrom (eq : α → α → Bool) (l other : DList α) : Option (DList α) :=
  if other.size = 0 then some l else removeAllLoop eq other other.size 0 l

/-- The same `foreach` when `other_list` is the list itself: what is read is what was not yet removed. -/
def removeSelfLoop (eq : α → α → Bool) : Nat → Nat → DList α → Option (DList α)
  | 0, _, l => some l
  | n + 1, i, l => do
    let v ← get l i
    let (l', _) ← removeItem eq l v
    removeSelfLoop eq n (i + 1) l'

/-- `List.remove_all_from`, list.c3 528–536, called with `other_list == self`. -/
def removeAllFromSelf (eq : α → α → Bool) (l : DList α) : Option (DList α) :=
  if l.size = 0 then some l else removeSelfLoop eq l.size 0 l

end C3.DynList
