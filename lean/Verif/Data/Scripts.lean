import Verif.Data.Beng
import Verif.Data.Bugi
import Verif.Data.Deva
import Verif.Data.Gujr
import Verif.Data.Guru
import Verif.Data.Knda
import Verif.Data.Lepc
import Verif.Data.Limb
import Verif.Data.Mlym
import Verif.Data.Mtei
import Verif.Data.Newa
import Verif.Data.Orya
import Verif.Data.Sinh
import Verif.Data.Sylo
import Verif.Data.Takr
import Verif.Data.Taml
import Verif.Data.Telu
import Verif.Data.Tglg
import Verif.Data.Thaa
import Verif.Data.Tirh
/-! Generated by tools/gen_tables.py from
  nisaba/scripts/brahmic/util.py (SCRIPTS) and nisaba/scripts/brahmic/data/symbol.textproto, Beng/{as,bn}, Deva/hi, Mlym/fixed
-/
namespace Nisaba.Data

/-- nisaba/scripts/brahmic/util.py:75-96 `SCRIPTS`. -/
def scripts : List BrahmicData :=
  [beng, bugi, deva, gujr, guru, knda, lepc, limb, mlym, mtei, newa, orya, sinh, sylo, takr, taml, telu, tglg, thaa, tirh]

/-- data/symbol.textproto -/
def commonSymbol : List (Str × Str) := [([nat_lit 8204], [nat_lit 124]),
    ([nat_lit 8205], [nat_lit 43])]

def bengAsBeforeConsonant : List (Str × Str) := [([nat_lit 2480, nat_lit 2509], [nat_lit 2544, nat_lit 2509])]

def bengAsAfterConsonant : List (Str × Str) := [([nat_lit 2509, nat_lit 2480], [nat_lit 2509, nat_lit 2544])]

def bengBnBeforeConsonant : List (Str × Str) := [([nat_lit 2544, nat_lit 2509], [nat_lit 2480, nat_lit 2509])]

def bengBnAfterConsonant : List (Str × Str) := [([nat_lit 2509, nat_lit 2544], [nat_lit 2509, nat_lit 2480])]

def devaHiReadingNorm : List (Str × Str) := [([nat_lit 2329, nat_lit 2381, nat_lit 2325], [nat_lit 2306, nat_lit 2325]),
    ([nat_lit 2329, nat_lit 2381, nat_lit 2326], [nat_lit 2306, nat_lit 2326]),
    ([nat_lit 2329, nat_lit 2381, nat_lit 2327], [nat_lit 2306, nat_lit 2327]),
    ([nat_lit 2329, nat_lit 2381, nat_lit 2328], [nat_lit 2306, nat_lit 2328]),
    ([nat_lit 2334, nat_lit 2381, nat_lit 2330], [nat_lit 2306, nat_lit 2330]),
    ([nat_lit 2334, nat_lit 2381, nat_lit 2331], [nat_lit 2306, nat_lit 2331]),
    ([nat_lit 2334, nat_lit 2381, nat_lit 2332], [nat_lit 2306, nat_lit 2332]),
    ([nat_lit 2334, nat_lit 2381, nat_lit 2333], [nat_lit 2306, nat_lit 2333]),
    ([nat_lit 2339, nat_lit 2381, nat_lit 2335], [nat_lit 2306, nat_lit 2335]),
    ([nat_lit 2339, nat_lit 2381, nat_lit 2336], [nat_lit 2306, nat_lit 2336]),
    ([nat_lit 2339, nat_lit 2381, nat_lit 2337], [nat_lit 2306, nat_lit 2337]),
    ([nat_lit 2339, nat_lit 2381, nat_lit 2338], [nat_lit 2306, nat_lit 2338]),
    ([nat_lit 2344, nat_lit 2381, nat_lit 2340], [nat_lit 2306, nat_lit 2340]),
    ([nat_lit 2344, nat_lit 2381, nat_lit 2341], [nat_lit 2306, nat_lit 2341]),
    ([nat_lit 2344, nat_lit 2381, nat_lit 2342], [nat_lit 2306, nat_lit 2342]),
    ([nat_lit 2344, nat_lit 2381, nat_lit 2343], [nat_lit 2306, nat_lit 2343]),
    ([nat_lit 2350, nat_lit 2381, nat_lit 2346], [nat_lit 2306, nat_lit 2346]),
    ([nat_lit 2350, nat_lit 2381, nat_lit 2347], [nat_lit 2306, nat_lit 2347]),
    ([nat_lit 2350, nat_lit 2381, nat_lit 2348], [nat_lit 2306, nat_lit 2348]),
    ([nat_lit 2350, nat_lit 2381, nat_lit 2349], [nat_lit 2306, nat_lit 2349]),
    ([nat_lit 2350, nat_lit 2381, nat_lit 2351], [nat_lit 2306, nat_lit 2351]),
    ([nat_lit 2350, nat_lit 2381, nat_lit 2354], [nat_lit 2306, nat_lit 2354]),
    ([nat_lit 2350, nat_lit 2381, nat_lit 2357], [nat_lit 2306, nat_lit 2357]),
    ([nat_lit 2344, nat_lit 2381, nat_lit 2358], [nat_lit 2306, nat_lit 2358]),
    ([nat_lit 2344, nat_lit 2381, nat_lit 2360], [nat_lit 2306, nat_lit 2360])]

def mlymFixed : List (Str × Str) := [([nat_lit 97, nat_lit 97], [nat_lit 257]),
    ([nat_lit 105, nat_lit 105], [nat_lit 299]),
    ([nat_lit 117, nat_lit 117], [nat_lit 363]),
    ([nat_lit 107, nat_lit 104], [nat_lit 107, nat_lit 688]),
    ([nat_lit 103, nat_lit 104], [nat_lit 103, nat_lit 688]),
    ([nat_lit 99, nat_lit 104], [nat_lit 99]),
    ([nat_lit 99, nat_lit 104], [nat_lit 99, nat_lit 688]),
    ([nat_lit 106, nat_lit 104], [nat_lit 106, nat_lit 688]),
    ([nat_lit 84, nat_lit 104], [nat_lit 7789, nat_lit 688]),
    ([nat_lit 68, nat_lit 104], [nat_lit 7693, nat_lit 688]),
    ([nat_lit 100, nat_lit 104], [nat_lit 100, nat_lit 688]),
    ([nat_lit 112, nat_lit 104], [nat_lit 112, nat_lit 688]),
    ([nat_lit 98, nat_lit 104], [nat_lit 98, nat_lit 688]),
    ([nat_lit 115, nat_lit 104], [nat_lit 7779]),
    ([nat_lit 122, nat_lit 104], [nat_lit 7739]),
    ([nat_lit 69], [nat_lit 275]),
    ([nat_lit 79], [nat_lit 333]),
    ([nat_lit 72], [nat_lit 7717]),
    ([nat_lit 84], [nat_lit 7789]),
    ([nat_lit 68], [nat_lit 7693]),
    ([nat_lit 78], [nat_lit 7751, nat_lit 11823]),
    ([nat_lit 110], [nat_lit 110, nat_lit 11823]),
    ([nat_lit 109], [nat_lit 7745]),
    ([nat_lit 114], [nat_lit 114, nat_lit 11823]),
    ([nat_lit 108], [nat_lit 108, nat_lit 11823]),
    ([nat_lit 83], [nat_lit 347]),
    ([nat_lit 76], [nat_lit 7735, nat_lit 11823]),
    ([nat_lit 116], [nat_lit 7775, nat_lit 7775]),
    ([nat_lit 82], [nat_lit 114, nat_lit 805]),
    ([nat_lit 114, nat_lit 805, nat_lit 114, nat_lit 805], [nat_lit 114, nat_lit 805, nat_lit 772]),
    ([nat_lit 110, nat_lit 11823, nat_lit 106], [nat_lit 241]),
    ([nat_lit 7775, nat_lit 7775, nat_lit 104], [nat_lit 116]),
    ([nat_lit 116, nat_lit 104], [nat_lit 116, nat_lit 688]),
    ([nat_lit 110, nat_lit 11823, nat_lit 103], [nat_lit 7749]),
    ([nat_lit 114, nat_lit 11823, nat_lit 114, nat_lit 11823], [nat_lit 7775]),
    ([nat_lit 110, nat_lit 11823, nat_lit 110, nat_lit 11823], [nat_lit 110, nat_lit 110]),
    ([nat_lit 110, nat_lit 11823, nat_lit 100], [nat_lit 110, nat_lit 100]),
    ([nat_lit 110, nat_lit 11823, nat_lit 7745], [nat_lit 110, nat_lit 109]),
    ([nat_lit 7751, nat_lit 11823, nat_lit 7751, nat_lit 11823], [nat_lit 7751, nat_lit 7751]),
    ([nat_lit 7751, nat_lit 11823, nat_lit 7693], [nat_lit 7751, nat_lit 7693]),
    ([nat_lit 7751, nat_lit 11823, nat_lit 7789], [nat_lit 7751, nat_lit 7789]),
    ([nat_lit 7751, nat_lit 11823, nat_lit 7745], [nat_lit 7751, nat_lit 109]),
    ([nat_lit 108, nat_lit 11823, nat_lit 108, nat_lit 11823], [nat_lit 108, nat_lit 108]),
    ([nat_lit 108, nat_lit 11823, nat_lit 7745], [nat_lit 108, nat_lit 109]),
    ([nat_lit 108, nat_lit 11823, nat_lit 112], [nat_lit 108, nat_lit 112]),
    ([nat_lit 7735, nat_lit 11823, nat_lit 7735, nat_lit 11823], [nat_lit 7735, nat_lit 7735]),
    ([nat_lit 11823, nat_lit 97], [nat_lit 97]),
    ([nat_lit 11823, nat_lit 257], [nat_lit 257]),
    ([nat_lit 11823, nat_lit 105], [nat_lit 105]),
    ([nat_lit 11823, nat_lit 299], [nat_lit 299]),
    ([nat_lit 11823, nat_lit 117], [nat_lit 117]),
    ([nat_lit 11823, nat_lit 363], [nat_lit 363]),
    ([nat_lit 11823, nat_lit 114, nat_lit 805], [nat_lit 114, nat_lit 805]),
    ([nat_lit 11823, nat_lit 101], [nat_lit 101]),
    ([nat_lit 11823, nat_lit 275], [nat_lit 275]),
    ([nat_lit 11823, nat_lit 111], [nat_lit 111]),
    ([nat_lit 11823, nat_lit 333], [nat_lit 333]),
    ([nat_lit 11823, nat_lit 121], [nat_lit 121]),
    ([nat_lit 11823, nat_lit 114], [nat_lit 114]),
    ([nat_lit 11823, nat_lit 108], [nat_lit 108]),
    ([nat_lit 11823, nat_lit 118], [nat_lit 118]),
    ([nat_lit 7745, nat_lit 7745], [nat_lit 109, nat_lit 109]),
    ([nat_lit 7745, nat_lit 97], [nat_lit 109, nat_lit 97]),
    ([nat_lit 7745, nat_lit 257], [nat_lit 109, nat_lit 257]),
    ([nat_lit 7745, nat_lit 105], [nat_lit 109, nat_lit 105]),
    ([nat_lit 7745, nat_lit 299], [nat_lit 109, nat_lit 299]),
    ([nat_lit 7745, nat_lit 117], [nat_lit 109, nat_lit 117]),
    ([nat_lit 7745, nat_lit 363], [nat_lit 109, nat_lit 363]),
    ([nat_lit 7745, nat_lit 101], [nat_lit 109, nat_lit 101]),
    ([nat_lit 7745, nat_lit 275], [nat_lit 109, nat_lit 275]),
    ([nat_lit 7745, nat_lit 111], [nat_lit 109, nat_lit 111]),
    ([nat_lit 7745, nat_lit 112], [nat_lit 109, nat_lit 112]),
    ([nat_lit 7745, nat_lit 121], [nat_lit 109, nat_lit 121]),
    ([nat_lit 7745, nat_lit 108], [nat_lit 109, nat_lit 108]),
    ([nat_lit 7745, nat_lit 118], [nat_lit 109, nat_lit 118]),
    ([nat_lit 7745, nat_lit 114], [nat_lit 109, nat_lit 114]),
    ([nat_lit 7745, nat_lit 114, nat_lit 805], [nat_lit 109, nat_lit 114, nat_lit 805]),
    ([nat_lit 110, nat_lit 11823, nat_lit 116], [nat_lit 110, nat_lit 116]),
    ([nat_lit 110, nat_lit 11823, nat_lit 7775, nat_lit 7775], [nat_lit 110, nat_lit 11823, nat_lit 728, nat_lit 7775]),
    ([nat_lit 11823, nat_lit 126], []),
    ([nat_lit 126], [])]

end Nisaba.Data
