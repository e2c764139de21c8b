import Verif.Model.Bcc

/-!
The naive tetrahedra of a body-centred cubic cell, /repo/helpers/sdfexp/bccmesh.go:239-259.
-/

namespace Sdf
namespace Bcc

/-- /repo/helpers/sdfexp/bccmesh.go:240-259 `naiveTetras`. -/
def Node.naiveTetras (n : Node) : List Tet :=
  let nctr := n.bccnod .ictr
  [(n.bccnod .i000, n.bccnod .i0yz, n.bccnod .i0y0, nctr), (n.bccnod .i000, n.bccnod .i00z, n.bccnod .i0yz, nctr),
   (n.bccnod .ix00, n.bccnod .ixy0, n.bccnod .ixyz, nctr), (n.bccnod .ix00, n.bccnod .ixyz, n.bccnod .ix0z, nctr),
   (n.bccnod .i000, n.bccnod .ix0z, n.bccnod .i00z, nctr), (n.bccnod .i000, n.bccnod .ix00, n.bccnod .ix0z, nctr),
   (n.bccnod .i0y0, n.bccnod .i0yz, n.bccnod .ixyz, nctr), (n.bccnod .i0y0, n.bccnod .ixyz, n.bccnod .ixy0, nctr),
   (n.bccnod .i000, n.bccnod .ixy0, n.bccnod .ix00, nctr), (n.bccnod .i000, n.bccnod .i0y0, n.bccnod .ixy0, nctr),
   (n.bccnod .i00z, n.bccnod .ix0z, n.bccnod .ixyz, nctr), (n.bccnod .i00z, n.bccnod .ixyz, n.bccnod .i0yz, nctr)]

end Bcc
end Sdf
