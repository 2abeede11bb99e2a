import Verif.Model.Py
/-! Model of the part of the `bitarray` package used by the library: a bitarray is the list of its bits. -/
namespace Verif

abbrev Bits := List Bool

namespace Bits
/-- `a & b`: `ValueError` for different lengths in `bitarray`; every use in the library is on equal lengths (the list
model truncates). -/
def and (a b : Bits) : Bits := List.zipWith (· && ·) a b
/-- `a | b` -/
def or (a b : Bits) : Bits := List.zipWith (· || ·) a b
/-- `~a` -/
def not (a : Bits) : Bits := a.map (!·)
/-- `a.count(1)` -/
def ones (a : Bits) : Nat := a.count true
/-- bit `i` (false outside) -/
def get (a : Bits) (i : Nat) : Bool := a.getD i false
end Bits
end Verif
