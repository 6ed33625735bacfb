import Verif.Lemmas.VisualIdem
namespace Nisaba
set_option maxRecDepth 100000
theorem idem_tirh : (idemTables Data.tirh && idemClosed Data.tirh) = true := by decide +kernel
end Nisaba
