import Verif.Lemmas.VisualIdem
namespace Nisaba
set_option maxRecDepth 100000
theorem idem_guru : (idemTables Data.guru && idemClosed Data.guru) = true := by decide +kernel
end Nisaba
