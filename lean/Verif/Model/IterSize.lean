import Verif.Model.EliasFanoIter

/-!
# `size_hint` and `count` of the iterators
-/

namespace Vers

/-- `size_hint`, src/util/general_iter.rs:93-95. -/
def GenIter.sizeHint (it : GenIter) : Nat × Option Nat := (it.len, some it.len)

/-- `count`, src/util/general_iter.rs:99-104. -/
def GenIter.count (it : GenIter) : Nat := it.len

/-- `size_hint`, src/bit_vec/fast_rs_vec/iter.rs:372-374. -/
def SelIter.sizeHint (it : SelIter) : Nat × Option Nat := (it.len, some it.len)

/-- `count`, src/bit_vec/fast_rs_vec/iter.rs:376-381. -/
def SelIter.count (it : SelIter) : Nat := it.len

/-- `size_hint`, src/util/elias_fano_iter.rs:84-86. -/
def EfIter.sizeHint (it : EfIter) : Nat × Option Nat := (it.pos.len, some it.pos.len)

/-- `count`, src/util/elias_fano_iter.rs:90-95. -/
def EfIter.count (it : EfIter) : Nat := it.pos.len

end Vers
