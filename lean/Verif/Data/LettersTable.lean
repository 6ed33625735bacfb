import Verif.Model.Letters
/-! Generated by evaluating `latin` and `english` of `Verif.Model.Letters`; checked in
`Verif.Lemmas.Letters`. -/
namespace Nisaba.PhonInv

def latinSymbols : List Phoneme := [
  ⟨[97], [97], [], [[1], [1], [1001], [1001], [1001], [6, 7], [1, 2], [7], [1], [6], [1001], [2], [3], [2], [1000], [1]]⟩,
  ⟨[101], [101], [], [[1], [1], [1001], [1001], [1001], [3, 4, 5], [1, 2], [7], [1], [6], [1001], [2], [3], [2], [1000], [1]]⟩,
  ⟨[105], [105], [], [[1], [1], [1001], [1001], [1001], [1, 2], [1, 2], [7], [1], [6], [1001], [2], [3], [2], [1000], [1]]⟩,
  ⟨[111], [111], [], [[1], [1], [1001], [1001], [1001], [6, 7], [4, 5], [7], [1], [3], [1001], [2], [3], [2], [1000], [1]]⟩,
  ⟨[117], [117], [], [[1], [1], [1001], [1001], [1001], [1, 2], [4, 5], [7], [1], [3], [1001], [2], [3], [2], [1000], [1]]⟩,
  ⟨[98], [98], [], [[2], [1], [1], [1], [1], [1001], [1001], [1000], [1], [2], [2], [2], [3], [2], [1000], [2]]⟩,
  ⟨[99], [99], [], [[2], [1], [1, 3], [2, 3, 4, 5], [2, 3], [1001], [1001], [1000], [2], [5], [2], [2], [3], [2], [1000], [2]]⟩,
  ⟨[100], [100], [], [[2], [1], [1], [2, 3, 4, 5], [2, 3], [1001], [1001], [1000], [1], [5], [2], [2], [3], [2], [1000], [2]]⟩,
  ⟨[102], [102], [], [[2], [1], [3], [2], [1], [1001], [1001], [1000], [2], [2], [2], [2], [3], [2], [1000], [2]]⟩,
  ⟨[103], [103], [], [[2], [1], [1], [6], [4], [1001], [1001], [1000], [1], [5], [2], [2], [3], [2], [1000], [2]]⟩,
  ⟨[104], [104], [], [[2], [1], [3], [9], [5], [1001], [1001], [1000], [1000], [5], [2], [2], [3], [2], [1000], [2]]⟩,
  ⟨[106], [106], [], [[2], [1], [1, 3], [2, 3, 4, 5], [2, 3], [1001], [1001], [1000], [1], [5], [2], [2], [3], [2], [1000], [2]]⟩,
  ⟨[107], [107], [], [[2], [1], [1], [6], [4], [1001], [1001], [1000], [2], [5], [2], [2], [3], [2], [1000], [2]]⟩,
  ⟨[108], [108], [], [[2], [1], [9], [2, 3, 4, 5], [2, 3], [1001], [1001], [1000], [1], [5], [1], [2], [3], [2], [1000], [2]]⟩,
  ⟨[109], [109], [], [[2], [1], [1], [1], [1], [1001], [1001], [1000], [1], [2], [2], [1], [3], [2], [1000], [2]]⟩,
  ⟨[110], [110], [], [[2], [1], [1], [2, 3, 4, 5], [2, 3], [1001], [1001], [1000], [1], [5], [2], [1], [3], [2], [1000], [2]]⟩,
  ⟨[112], [112], [], [[2], [1], [1], [1], [1], [1001], [1001], [1000], [2], [2], [2], [2], [3], [2], [1000], [2]]⟩,
  ⟨[113], [113], [], [[2], [1], [1000], [6], [4], [1001], [1001], [1000], [2], [5], [2], [2], [3], [2], [1000], [2]]⟩,
  ⟨[114], [114], [], [[2], [1], [1000], [2, 3, 4, 5], [2, 3], [1001], [1001], [1000], [1000], [5], [2], [2], [3], [1], [1000], [2]]⟩,
  ⟨[115], [115], [], [[2], [1], [3], [2, 3, 4, 5], [2, 3], [1001], [1001], [1000], [2], [5], [2], [2], [3], [2], [1000], [2]]⟩,
  ⟨[116], [116], [], [[2], [1], [1], [2, 3, 4, 5], [2, 3], [1001], [1001], [1000], [2], [5], [2], [2], [3], [2], [1000], [2]]⟩,
  ⟨[118], [118], [], [[2], [1], [3], [2], [1], [1001], [1001], [1000], [1], [2], [2], [2], [3], [2], [1000], [2]]⟩,
  ⟨[119], [119], [], [[2], [1], [9], [1, 6], [1, 4], [1001], [1001], [1000], [1], [2], [2], [2], [3], [2], [1000], [2]]⟩,
  ⟨[120], [120], [], [[2], [1], [1, 3], [3, 6], [2, 3, 4], [1001], [1001], [1000], [2], [5], [2], [2], [3], [2], [1000], [2]]⟩,
  ⟨[121], [121], [], [[2], [1], [9], [5], [2, 3, 4], [1001], [1001], [1000], [1], [5], [2], [2], [2], [2], [1000], [2]]⟩,
  ⟨[122], [122], [], [[2], [1], [3], [2, 3, 4, 5], [2, 3], [1001], [1001], [1000], [1], [5], [2], [2], [3], [2], [1000], [2]]⟩,
  ⟨[65], [97, 95, 117, 112, 112, 101, 114], [], [[1], [1], [1001], [1001], [1001], [6, 7], [1, 2], [7], [1], [6], [1001], [2], [3], [2], [1000], [1]]⟩,
  ⟨[69], [101, 95, 117, 112, 112, 101, 114], [], [[1], [1], [1001], [1001], [1001], [3, 4, 5], [1, 2], [7], [1], [6], [1001], [2], [3], [2], [1000], [1]]⟩,
  ⟨[73], [105, 95, 117, 112, 112, 101, 114], [], [[1], [1], [1001], [1001], [1001], [1, 2], [1, 2], [7], [1], [6], [1001], [2], [3], [2], [1000], [1]]⟩,
  ⟨[79], [111, 95, 117, 112, 112, 101, 114], [], [[1], [1], [1001], [1001], [1001], [6, 7], [4, 5], [7], [1], [3], [1001], [2], [3], [2], [1000], [1]]⟩,
  ⟨[85], [117, 95, 117, 112, 112, 101, 114], [], [[1], [1], [1001], [1001], [1001], [1, 2], [4, 5], [7], [1], [3], [1001], [2], [3], [2], [1000], [1]]⟩,
  ⟨[66], [98, 95, 117, 112, 112, 101, 114], [], [[2], [1], [1], [1], [1], [1001], [1001], [1000], [1], [2], [2], [2], [3], [2], [1000], [2]]⟩,
  ⟨[67], [99, 95, 117, 112, 112, 101, 114], [], [[2], [1], [1, 3], [2, 3, 4, 5], [2, 3], [1001], [1001], [1000], [2], [5], [2], [2], [3], [2], [1000], [2]]⟩,
  ⟨[68], [100, 95, 117, 112, 112, 101, 114], [], [[2], [1], [1], [2, 3, 4, 5], [2, 3], [1001], [1001], [1000], [1], [5], [2], [2], [3], [2], [1000], [2]]⟩,
  ⟨[70], [102, 95, 117, 112, 112, 101, 114], [], [[2], [1], [3], [2], [1], [1001], [1001], [1000], [2], [2], [2], [2], [3], [2], [1000], [2]]⟩,
  ⟨[71], [103, 95, 117, 112, 112, 101, 114], [], [[2], [1], [1], [6], [4], [1001], [1001], [1000], [1], [5], [2], [2], [3], [2], [1000], [2]]⟩,
  ⟨[72], [104, 95, 117, 112, 112, 101, 114], [], [[2], [1], [3], [9], [5], [1001], [1001], [1000], [1000], [5], [2], [2], [3], [2], [1000], [2]]⟩,
  ⟨[74], [106, 95, 117, 112, 112, 101, 114], [], [[2], [1], [1, 3], [2, 3, 4, 5], [2, 3], [1001], [1001], [1000], [1], [5], [2], [2], [3], [2], [1000], [2]]⟩,
  ⟨[75], [107, 95, 117, 112, 112, 101, 114], [], [[2], [1], [1], [6], [4], [1001], [1001], [1000], [2], [5], [2], [2], [3], [2], [1000], [2]]⟩,
  ⟨[76], [108, 95, 117, 112, 112, 101, 114], [], [[2], [1], [9], [2, 3, 4, 5], [2, 3], [1001], [1001], [1000], [1], [5], [1], [2], [3], [2], [1000], [2]]⟩,
  ⟨[77], [109, 95, 117, 112, 112, 101, 114], [], [[2], [1], [1], [1], [1], [1001], [1001], [1000], [1], [2], [2], [1], [3], [2], [1000], [2]]⟩,
  ⟨[78], [110, 95, 117, 112, 112, 101, 114], [], [[2], [1], [1], [2, 3, 4, 5], [2, 3], [1001], [1001], [1000], [1], [5], [2], [1], [3], [2], [1000], [2]]⟩,
  ⟨[80], [112, 95, 117, 112, 112, 101, 114], [], [[2], [1], [1], [1], [1], [1001], [1001], [1000], [2], [2], [2], [2], [3], [2], [1000], [2]]⟩,
  ⟨[81], [113, 95, 117, 112, 112, 101, 114], [], [[2], [1], [1000], [6], [4], [1001], [1001], [1000], [2], [5], [2], [2], [3], [2], [1000], [2]]⟩,
  ⟨[82], [114, 95, 117, 112, 112, 101, 114], [], [[2], [1], [1000], [2, 3, 4, 5], [2, 3], [1001], [1001], [1000], [1000], [5], [2], [2], [3], [1], [1000], [2]]⟩,
  ⟨[83], [115, 95, 117, 112, 112, 101, 114], [], [[2], [1], [3], [2, 3, 4, 5], [2, 3], [1001], [1001], [1000], [2], [5], [2], [2], [3], [2], [1000], [2]]⟩,
  ⟨[84], [116, 95, 117, 112, 112, 101, 114], [], [[2], [1], [1], [2, 3, 4, 5], [2, 3], [1001], [1001], [1000], [2], [5], [2], [2], [3], [2], [1000], [2]]⟩,
  ⟨[86], [118, 95, 117, 112, 112, 101, 114], [], [[2], [1], [3], [2], [1], [1001], [1001], [1000], [1], [2], [2], [2], [3], [2], [1000], [2]]⟩,
  ⟨[87], [119, 95, 117, 112, 112, 101, 114], [], [[2], [1], [9], [1, 6], [1, 4], [1001], [1001], [1000], [1], [2], [2], [2], [3], [2], [1000], [2]]⟩,
  ⟨[88], [120, 95, 117, 112, 112, 101, 114], [], [[2], [1], [1, 3], [3, 6], [2, 3, 4], [1001], [1001], [1000], [2], [5], [2], [2], [3], [2], [1000], [2]]⟩,
  ⟨[89], [121, 95, 117, 112, 112, 101, 114], [], [[2], [1], [9], [5], [2, 3, 4], [1001], [1001], [1000], [1], [5], [2], [2], [2], [2], [1000], [2]]⟩,
  ⟨[90], [122, 95, 117, 112, 112, 101, 114], [], [[2], [1], [3], [2, 3, 4, 5], [2, 3], [1001], [1001], [1000], [1], [5], [2], [2], [3], [2], [1000], [2]]⟩,
  ⟨[48], [122, 101, 114, 111], [], [[1001], [1001], [1001], [1001], [1001], [1001], [1001], [1001], [1001], [1001], [1001], [1001], [1001], [1001], [1001], [1001]]⟩,
  ⟨[49], [111, 110, 101], [], [[1001], [1001], [1001], [1001], [1001], [1001], [1001], [1001], [1001], [1001], [1001], [1001], [1001], [1001], [1001], [1001]]⟩,
  ⟨[50], [116, 119, 111], [], [[1001], [1001], [1001], [1001], [1001], [1001], [1001], [1001], [1001], [1001], [1001], [1001], [1001], [1001], [1001], [1001]]⟩,
  ⟨[51], [116, 104, 114, 101, 101], [], [[1001], [1001], [1001], [1001], [1001], [1001], [1001], [1001], [1001], [1001], [1001], [1001], [1001], [1001], [1001], [1001]]⟩,
  ⟨[52], [102, 111, 117, 114], [], [[1001], [1001], [1001], [1001], [1001], [1001], [1001], [1001], [1001], [1001], [1001], [1001], [1001], [1001], [1001], [1001]]⟩,
  ⟨[53], [102, 105, 118, 101], [], [[1001], [1001], [1001], [1001], [1001], [1001], [1001], [1001], [1001], [1001], [1001], [1001], [1001], [1001], [1001], [1001]]⟩,
  ⟨[54], [115, 105, 120], [], [[1001], [1001], [1001], [1001], [1001], [1001], [1001], [1001], [1001], [1001], [1001], [1001], [1001], [1001], [1001], [1001]]⟩,
  ⟨[55], [115, 101, 118, 101, 110], [], [[1001], [1001], [1001], [1001], [1001], [1001], [1001], [1001], [1001], [1001], [1001], [1001], [1001], [1001], [1001], [1001]]⟩,
  ⟨[56], [101, 105, 103, 104, 116], [], [[1001], [1001], [1001], [1001], [1001], [1001], [1001], [1001], [1001], [1001], [1001], [1001], [1001], [1001], [1001], [1001]]⟩,
  ⟨[57], [110, 105, 110, 101], [], [[1001], [1001], [1001], [1001], [1001], [1001], [1001], [1001], [1001], [1001], [1001], [1001], [1001], [1001], [1001], [1001]]⟩]

def englishSymbols : List Phoneme := [
  ⟨[97], [97], [], [[1], [1], [1001], [1001], [1001], [6, 3, 2, 7, 5, 4], [1, 2, 5, 3], [7], [1], [6], [1001], [2], [3], [2], [1000], [1]]⟩,
  ⟨[65], [97, 95, 117, 112, 112, 101, 114], [], [[1], [1], [1001], [1001], [1001], [6, 3, 2, 7, 5, 4], [1, 2, 5, 3], [7], [1], [6], [1001], [2], [3], [2], [1000], [1]]⟩,
  ⟨[98], [98], [], [[2], [1], [1], [1], [1], [1001], [1001], [1000], [1], [2], [2], [2], [3], [2], [1000], [2]]⟩,
  ⟨[66], [98, 95, 117, 112, 112, 101, 114], [], [[2], [1], [1], [1], [1], [1001], [1001], [1000], [1], [2], [2], [2], [3], [2], [1000], [2]]⟩,
  ⟨[99], [99], [], [[2], [1], [5, 1], [2, 3, 6], [2, 3, 4], [1001], [1001], [1000], [2], [5], [2], [2], [3], [2], [1000], [2]]⟩,
  ⟨[67], [99, 95, 117, 112, 112, 101, 114], [], [[2], [1], [5, 1], [2, 3, 6], [2, 3, 4], [1001], [1001], [1000], [2], [5], [2], [2], [3], [2], [1000], [2]]⟩,
  ⟨[100], [100], [], [[2], [1], [1], [2, 3, 4], [2, 3], [1001], [1001], [1000], [1], [5], [2], [2], [3], [2], [1000], [2]]⟩,
  ⟨[68], [100, 95, 117, 112, 112, 101, 114], [], [[2], [1], [1], [2, 3, 4], [2, 3], [1001], [1001], [1000], [1], [5], [2], [2], [3], [2], [1000], [2]]⟩,
  ⟨[101], [101], [], [[1], [1], [1001], [1001], [1001], [5, 1, 2, 4], [1, 3, 2], [7], [1], [6], [1001], [2], [3], [2], [1000], [1]]⟩,
  ⟨[69], [101, 95, 117, 112, 112, 101, 114], [], [[1], [1], [1001], [1001], [1001], [5, 1, 2, 4], [1, 3, 2], [7], [1], [6], [1001], [2], [3], [2], [1000], [1]]⟩,
  ⟨[102], [102], [], [[2], [1], [7], [2], [1], [1001], [1001], [1000], [2], [2], [2], [2], [3], [2], [1000], [2]]⟩,
  ⟨[70], [102, 95, 117, 112, 112, 101, 114], [], [[2], [1], [7], [2], [1], [1001], [1001], [1000], [2], [2], [2], [2], [3], [2], [1000], [2]]⟩,
  ⟨[103], [103], [], [[2], [1], [1, 5], [6, 2, 3, 4], [4, 2, 3], [1001], [1001], [1000], [1], [5], [2], [2], [3, 1], [2], [1000], [2]]⟩,
  ⟨[71], [103, 95, 117, 112, 112, 101, 114], [], [[2], [1], [1, 5], [6, 2, 3, 4], [4, 2, 3], [1001], [1001], [1000], [1], [5], [2], [2], [3, 1], [2], [1000], [2]]⟩,
  ⟨[104], [104], [], [[2], [1], [7], [9], [5], [1001], [1001], [1000], [2], [5], [2], [2], [3], [2], [1000], [2]]⟩,
  ⟨[72], [104, 95, 117, 112, 112, 101, 114], [], [[2], [1], [7], [9], [5], [1001], [1001], [1000], [2], [5], [2], [2], [3], [2], [1000], [2]]⟩,
  ⟨[105], [105], [], [[1], [1], [1001], [1001], [1001], [2, 7, 5, 4], [2, 1, 3], [7], [1], [6], [1001], [2], [3], [2], [1000], [1]]⟩,
  ⟨[73], [105, 95, 117, 112, 112, 101, 114], [], [[1], [1], [1001], [1001], [1001], [2, 7, 5, 4], [2, 1, 3], [7], [1], [6], [1001], [2], [3], [2], [1000], [1]]⟩,
  ⟨[106], [106], [], [[2], [1], [1, 5, 9, 7], [2, 3, 4, 5, 9], [2, 3, 4, 5], [1001], [1001], [1000], [1, 1000, 2], [5], [2], [2], [3, 1, 2], [2], [1000], [2]]⟩,
  ⟨[74], [106, 95, 117, 112, 112, 101, 114], [], [[2], [1], [1, 5, 9, 7], [2, 3, 4, 5, 9], [2, 3, 4, 5], [1001], [1001], [1000], [1, 1000, 2], [5], [2], [2], [3, 1, 2], [2], [1000], [2]]⟩,
  ⟨[107], [107], [], [[2], [1], [1], [6], [4], [1001], [1001], [1000], [2], [5], [2], [2], [3], [2], [1000], [2]]⟩,
  ⟨[75], [107, 95, 117, 112, 112, 101, 114], [], [[2], [1], [1], [6], [4], [1001], [1001], [1000], [2], [5], [2], [2], [3], [2], [1000], [2]]⟩,
  ⟨[108], [108], [], [[2], [1], [9], [2, 3, 4], [2, 3], [1001], [1001], [1000], [1], [5], [1], [2], [3], [2], [1000], [2]]⟩,
  ⟨[76], [108, 95, 117, 112, 112, 101, 114], [], [[2], [1], [9], [2, 3, 4], [2, 3], [1001], [1001], [1000], [1], [5], [1], [2], [3], [2], [1000], [2]]⟩,
  ⟨[109], [109], [], [[2], [1], [1], [1], [1], [1001], [1001], [1000], [1], [2], [2], [1], [3], [2], [1000], [2]]⟩,
  ⟨[77], [109, 95, 117, 112, 112, 101, 114], [], [[2], [1], [1], [1], [1], [1001], [1001], [1000], [1], [2], [2], [1], [3], [2], [1000], [2]]⟩,
  ⟨[110], [110], [], [[2], [1], [1], [2, 3, 4], [2, 3], [1001], [1001], [1000], [1], [5], [2], [1], [3], [2], [1000], [2]]⟩,
  ⟨[78], [110, 95, 117, 112, 112, 101, 114], [], [[2], [1], [1], [2, 3, 4], [2, 3], [1001], [1001], [1000], [1], [5], [2], [1], [3], [2], [1000], [2]]⟩,
  ⟨[111], [111], [], [[1], [1], [1001], [1001], [1001], [7, 3, 2, 5], [5, 4], [7], [1], [3], [1001], [2], [3], [2], [1000], [1]]⟩,
  ⟨[79], [111, 95, 117, 112, 112, 101, 114], [], [[1], [1], [1001], [1001], [1001], [7, 3, 2, 5], [5, 4], [7], [1], [3], [1001], [2], [3], [2], [1000], [1]]⟩,
  ⟨[112], [112], [], [[2], [1], [1], [1], [1], [1001], [1001], [1000], [2], [2], [2], [2], [3], [2], [1000], [2]]⟩,
  ⟨[80], [112, 95, 117, 112, 112, 101, 114], [], [[2], [1], [1], [1], [1], [1001], [1001], [1000], [2], [2], [2], [2], [3], [2], [1000], [2]]⟩,
  ⟨[113], [113], [], [[2], [1], [1], [6], [4], [1001], [1001], [1000], [2], [5], [2], [2], [3], [2], [1000], [2]]⟩,
  ⟨[81], [113, 95, 117, 112, 112, 101, 114], [], [[2], [1], [1], [6], [4], [1001], [1001], [1000], [2], [5], [2], [2], [3], [2], [1000], [2]]⟩,
  ⟨[114], [114], [], [[2], [1], [14], [2, 3, 4], [2, 3], [1001], [1001], [1000], [1000], [5], [2], [2], [3], [2], [1000], [2]]⟩,
  ⟨[82], [114, 95, 117, 112, 112, 101, 114], [], [[2], [1], [14], [2, 3, 4], [2, 3], [1001], [1001], [1000], [1000], [5], [2], [2], [3], [2], [1000], [2]]⟩,
  ⟨[115], [115], [], [[2], [1], [5], [2, 3, 4], [2, 3], [1001], [1001], [1000], [2, 1], [5], [2], [2], [3, 1], [2], [1000], [2]]⟩,
  ⟨[83], [115, 95, 117, 112, 112, 101, 114], [], [[2], [1], [5], [2, 3, 4], [2, 3], [1001], [1001], [1000], [2, 1], [5], [2], [2], [3, 1], [2], [1000], [2]]⟩,
  ⟨[116], [116], [], [[2], [1], [1, 5], [2, 3, 4], [2, 3], [1001], [1001], [1000], [2, 1], [5], [2], [2], [3, 1], [2], [1000], [2]]⟩,
  ⟨[84], [116, 95, 117, 112, 112, 101, 114], [], [[2], [1], [1, 5], [2, 3, 4], [2, 3], [1001], [1001], [1000], [2, 1], [5], [2], [2], [3, 1], [2], [1000], [2]]⟩,
  ⟨[117], [117], [], [[1], [1], [1001], [1001], [1001], [5, 2, 1, 4], [5, 4, 3], [7], [1], [6, 3], [1001], [2], [3], [2], [1000], [1]]⟩,
  ⟨[85], [117, 95, 117, 112, 112, 101, 114], [], [[1], [1], [1001], [1001], [1001], [5, 2, 1, 4], [5, 4, 3], [7], [1], [6, 3], [1001], [2], [3], [2], [1000], [1]]⟩,
  ⟨[118], [118], [], [[2], [1], [7], [2], [1], [1001], [1001], [1000], [1], [2], [2], [2], [3], [2], [1000], [2]]⟩,
  ⟨[86], [118, 95, 117, 112, 112, 101, 114], [], [[2], [1], [7], [2], [1], [1001], [1001], [1000], [1], [2], [2], [2], [3], [2], [1000], [2]]⟩,
  ⟨[119], [119], [], [[2], [1], [9], [6], [4], [1001], [1001], [1000], [1000], [2], [2], [2], [3], [2], [1000], [2]]⟩,
  ⟨[87], [119, 95, 117, 112, 112, 101, 114], [], [[2], [1], [9], [6], [4], [1001], [1001], [1000], [1000], [2], [2], [2], [3], [2], [1000], [2]]⟩,
  ⟨[120], [120], [], [[2], [1], [1, 5], [6, 2, 3, 4], [4, 2, 3], [1001], [1001], [1000], [2, 1], [5], [2], [2], [3, 1], [2], [1000], [2]]⟩,
  ⟨[88], [120, 95, 117, 112, 112, 101, 114], [], [[2], [1], [1, 5], [6, 2, 3, 4], [4, 2, 3], [1001], [1001], [1000], [2, 1], [5], [2], [2], [3, 1], [2], [1000], [2]]⟩,
  ⟨[121], [121], [], [[2, 1], [1], [9, 1001], [5, 1001], [2, 3, 4, 1001], [1001, 2, 7, 5, 4], [1001, 2, 1, 3], [1000, 7], [1000, 1], [5, 6], [2, 1001], [2], [2, 3], [2], [1000], [2, 1]]⟩,
  ⟨[89], [121, 95, 117, 112, 112, 101, 114], [], [[2, 1], [1], [9, 1001], [5, 1001], [2, 3, 4, 1001], [1001, 2, 7, 5, 4], [1001, 2, 1, 3], [1000, 7], [1000, 1], [5, 6], [2, 1001], [2], [2, 3], [2], [1000], [2, 1]]⟩,
  ⟨[122], [122], [], [[2], [1], [5, 1], [2, 3, 4], [2, 3], [1001], [1001], [1000], [1, 2], [5], [2], [2], [3, 1], [2], [1000], [2]]⟩,
  ⟨[90], [122, 95, 117, 112, 112, 101, 114], [], [[2], [1], [5, 1], [2, 3, 4], [2, 3], [1001], [1001], [1000], [1, 2], [5], [2], [2], [3, 1], [2], [1000], [2]]⟩,
  ⟨[48], [122, 101, 114, 111], [], [[1001], [1001], [1001], [1001], [1001], [1001], [1001], [1001], [1001], [1001], [1001], [1001], [1001], [1001], [1001], [1001]]⟩,
  ⟨[49], [111, 110, 101], [], [[1001], [1001], [1001], [1001], [1001], [1001], [1001], [1001], [1001], [1001], [1001], [1001], [1001], [1001], [1001], [1001]]⟩,
  ⟨[50], [116, 119, 111], [], [[1001], [1001], [1001], [1001], [1001], [1001], [1001], [1001], [1001], [1001], [1001], [1001], [1001], [1001], [1001], [1001]]⟩,
  ⟨[51], [116, 104, 114, 101, 101], [], [[1001], [1001], [1001], [1001], [1001], [1001], [1001], [1001], [1001], [1001], [1001], [1001], [1001], [1001], [1001], [1001]]⟩,
  ⟨[52], [102, 111, 117, 114], [], [[1001], [1001], [1001], [1001], [1001], [1001], [1001], [1001], [1001], [1001], [1001], [1001], [1001], [1001], [1001], [1001]]⟩,
  ⟨[53], [102, 105, 118, 101], [], [[1001], [1001], [1001], [1001], [1001], [1001], [1001], [1001], [1001], [1001], [1001], [1001], [1001], [1001], [1001], [1001]]⟩,
  ⟨[54], [115, 105, 120], [], [[1001], [1001], [1001], [1001], [1001], [1001], [1001], [1001], [1001], [1001], [1001], [1001], [1001], [1001], [1001], [1001]]⟩,
  ⟨[55], [115, 101, 118, 101, 110], [], [[1001], [1001], [1001], [1001], [1001], [1001], [1001], [1001], [1001], [1001], [1001], [1001], [1001], [1001], [1001], [1001]]⟩,
  ⟨[56], [101, 105, 103, 104, 116], [], [[1001], [1001], [1001], [1001], [1001], [1001], [1001], [1001], [1001], [1001], [1001], [1001], [1001], [1001], [1001], [1001]]⟩,
  ⟨[57], [110, 105, 110, 101], [], [[1001], [1001], [1001], [1001], [1001], [1001], [1001], [1001], [1001], [1001], [1001], [1001], [1001], [1001], [1001], [1001]]⟩]

end Nisaba.PhonInv
