import Verif.Model.Bytes

/-!
# The common shape of the crate's fallible iterators

`next` returns `Ok(None)` when the remaining data is empty, otherwise calls `parse`, and clears the data
when `parse` fails.  This exact code is repeated in `NoteIterator::next` (src/read/elf/note.rs:53-63),
`GnuPropertyIterator::next` (247-257), `RelocationBlockIterator::next` (src/read/pe/relocation.rs:22-32)
and others; each model cites its own instance.
-/

namespace Obj

/-- `if self.data.is_empty() { return Ok(None) }; let result = self.parse().map(Some);
if result.is_err() { self.data = Bytes(&[]) }; result`. -/
def fuseNext {α : Type} (parse : List UInt8 → Res α × List UInt8) (data : List UInt8) :
    Res (Option α) × List UInt8 :=
  if data = [] then (.ok none, data)
  else match parse data with
    | (.ok x, d) => (.ok (some x), d)
    | (.err, _) => (.err, [])
    | (.panic, d) => (.panic, d)

end Obj
