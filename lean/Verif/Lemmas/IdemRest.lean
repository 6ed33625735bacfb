import Verif.Lemmas.VisualIdem
namespace Nisaba
set_option maxRecDepth 100000
theorem idem_rest : ([Data.bugi, Data.lepc, Data.limb, Data.mtei, Data.sylo, Data.takr, Data.tglg,
    Data.thaa].all fun d => idemTables d && idemClosed d) = true := by decide +kernel
end Nisaba
