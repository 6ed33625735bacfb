import Verif.Model.NtBrahmic
/-!
# Model of nisaba/scripts/natural_translit/brahmic/acronym.py and of `iso_to_nat` of Hindi

A grapheme given to `_letter`, which is one acceptor `gr.X` or a union of two of them, is the list of
the names of these acceptors.
-/
namespace Nisaba.NT
namespace Acr

/-- acronym.py:28-33 `_letter`. -/
def letter (gs : List (List Str)) : Lang :=
  gs.foldl (fun spelling g => cat spelling (align (oneOf (g.map gr)) R_SYMS)) (str [])

/-- acronym.py:37-44, 47-48. -/
def A_SGN : List Str := [a!"A", a!"AA"]
def A_IND : List Str := [a!"A_I", a!"AA_I"]
def E_SGN : List Str := [a!"E", a!"EE"]
def E_IND : List Str := [a!"E_I", a!"EE_I"]
def I_SGN : List Str := [a!"I", a!"II"]
def I_IND : List Str := [a!"I_I", a!"II_I"]
def O_IND : List Str := [a!"O_I", a!"OO_I"]
def U_SGN : List Str := [a!"U", a!"UU"]
def FPH : List Str := [a!"F", a!"PH"]
def ZJ : List Str := [a!"J", a!"Z"]

/-- acronym.py:52-80 and 89-119 `HI_ACRONYM_SET`: the arguments of `_letter` and the alias of the
translit. -/
def acronymSet : List (List (List Str) × Str) := [
  ([E_IND], a!"A_UC"),
  ([[a!"B"], I_SGN], a!"B_UC"),
  ([[a!"S"], I_SGN], a!"C_UC"),
  ([[a!"DD"], I_SGN], a!"D_UC"),
  ([I_IND], a!"E_UC"),
  ([E_IND, FPH, [a!"A"]], a!"F_UC"),
  ([[a!"J"], I_SGN], a!"G_UC"),
  ([E_IND, [a!"C"], [a!"A"]], a!"H_UC"),
  ([A_IND, I_IND], a!"I_UC"),
  ([[a!"J"], E_SGN], a!"J_UC"),
  ([[a!"K"], E_SGN], a!"K_UC"),
  ([E_IND, [a!"L"], [a!"A"]], a!"L_UC"),
  ([E_IND, [a!"M"], [a!"A"]], a!"M_UC"),
  ([E_IND, [a!"N"], [a!"A"]], a!"N_UC"),
  ([O_IND], a!"O_UC"),
  ([[a!"P"], I_SGN], a!"P_UC"),
  ([[a!"K"], [a!"Y"], U_SGN], a!"Q_UC"),
  ([A_IND, [a!"R"], [a!"A"]], a!"R_UC"),
  ([E_IND, [a!"S"], [a!"A"]], a!"S_UC"),
  ([[a!"TT"], I_SGN], a!"T_UC"),
  ([[a!"Y"], U_SGN], a!"U_UC"),
  ([[a!"V"], I_SGN], a!"V_UC"),
  ([[a!"DD"], [a!"A"], [a!"B"], [a!"L"], U_SGN], a!"W_UC"),
  ([[a!"DD"], [a!"A"], [a!"B"], [a!"L"], [a!"Y"], U_SGN], a!"W_UC"),
  ([[a!"DD"], [a!"A"], [a!"B"], [a!"A"], [a!"L"], [a!"Y"], U_SGN], a!"W_UC"),
  ([[a!"DD"], [a!"A"], [a!"B"], [a!"L"], [a!"A"], [a!"Y"], U_SGN], a!"W_UC"),
  ([E_IND, [a!"K"], [a!"S"], [a!"A"]], a!"X_UC"),
  ([[a!"V"], A_SGN, I_IND], a!"Y_UC"),
  ([ZJ, E_SGN, [a!"DD"], [a!"A"]], a!"Z_UC")]

/-- acronym.py:82-87 `_LETTERS`: the star of the union of the same acceptors. -/
def LETTERS : Lang := Star (oneOf (acronymSet.map fun p => letter p.1))

/-- latin/ltn_inventory.py:61 `EN_LETTERS`, with script/char.py:227-228 `thing_tr_star`. -/
def EN_LETTERS : Lang := Star (oneOf (Ltn.ASCII_UC.map fun c => str c.tr))

/-- acronym.py:121-124 `HI_ACR_TYP_TO_TR`. -/
def HI_ACR_TYP_TO_TR : List Rel :=
  [rewriteLs (acronymSet.map fun p => (letter p.1, tr p.2))
    (some (cat (str [bos]) EN_LETTERS)) (some (cat LETTERS (str [eos])))]

/-- acronym.py:126 `HI_ACR_TYP_TO_LTN`. -/
def HI_ACR_TYP_TO_LTN (m : Mode) : List Rel := HI_ACR_TYP_TO_TR ++ printOnlyLtn m

end Acr

open G2p Rom

namespace Hi
/-- language_params/hi.py:110-120, the list of `iso_to_nat` after the rule of acronyms. -/
def natOps (m : Mode) : List Rel :=
  txn ++ SIBV_TO_SIBW ++ AA_WI ++ RDH_RH ++ TXN_TO_PSA_COMMON ++ IGNORE_LONG ++ TRANSLIT_BY_PSA ++
    CC_TO_CCH ++ CCH_TO_CHH ++ S_SHSH_TO_SSH ++ printOnlyLtn m
/-- language_params/hi.py:105-121 `iso_to_nat`. -/
def nat (m : Mode) : List Rel := isoToTxn m ++ Acr.HI_ACR_TYP_TO_TR ++ natOps m
end Hi

end Nisaba.NT
