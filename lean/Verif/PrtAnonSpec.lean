import Verif.PrtHandlerSpec
import Verif.PrtDocSpec
/-! # Specification: anonymous individuals that are left out of ProtocOWL documents -/
namespace Cowl
open Prt

mutual
/-- An object with its anonymous individuals renamed. -/
def Obj.rename (r : Str → Str) : Obj → Obj
  | .prim (.anon s) => .prim (.anon (r s))
  | .vec b xs => .vec b (Obj.renameAll r xs)
  | .comp t b fs n => .comp t b (Obj.renameAll r fs) n
  | o => o
/-- Each object renamed. -/
def Obj.renameAll (r : Str → Str) : List Obj → List Obj
  | [] => []
  | x :: xs => x.rename r :: Obj.renameAll r xs
end

/-- An item with its anonymous individuals renamed. -/
def renameItem (r : Str → Str) : Func.Item → Func.Item
  | .annot o => .annot (o.rename r)
  | .ax o => .ax (o.rename r)
  | i => i

end Cowl
