import Verif.Model.Tables
/-! Generated by tools/gen_tables.py from
  nisaba/scripts/brahmic/data/Thaa/coda.textproto
  nisaba/scripts/brahmic/data/Thaa/consonant.textproto
  nisaba/scripts/brahmic/data/Thaa/uname_prefix.textproto
  nisaba/scripts/brahmic/data/Thaa/virama.textproto
  nisaba/scripts/brahmic/data/Thaa/vowel.textproto
  nisaba/scripts/brahmic/data/Thaa/vowel_sign.textproto
-/
namespace Nisaba.Data

def thaa : BrahmicData where
  name := "Thaa"
  consonant := [([nat_lit 1920], [nat_lit 104]),
    ([nat_lit 1921], [nat_lit 347]),
    ([nat_lit 1922], [nat_lit 110]),
    ([nat_lit 1923], [nat_lit 114]),
    ([nat_lit 1924], [nat_lit 98]),
    ([nat_lit 1925], [nat_lit 7735]),
    ([nat_lit 1926], [nat_lit 107]),
    ([nat_lit 1928], [nat_lit 118]),
    ([nat_lit 1929], [nat_lit 109]),
    ([nat_lit 1930], [nat_lit 102]),
    ([nat_lit 1931], [nat_lit 100]),
    ([nat_lit 1932], [nat_lit 116]),
    ([nat_lit 1933], [nat_lit 108]),
    ([nat_lit 1934], [nat_lit 103]),
    ([nat_lit 1935], [nat_lit 241]),
    ([nat_lit 1936], [nat_lit 115]),
    ([nat_lit 1937], [nat_lit 7693]),
    ([nat_lit 1938], [nat_lit 122]),
    ([nat_lit 1939], [nat_lit 7789]),
    ([nat_lit 1940], [nat_lit 121]),
    ([nat_lit 1941], [nat_lit 112]),
    ([nat_lit 1942], [nat_lit 106]),
    ([nat_lit 1943], [nat_lit 99]),
    ([nat_lit 1969], [nat_lit 328]),
    ([nat_lit 1944], [nat_lit 116, nat_lit 688]),
    ([nat_lit 1945], [nat_lit 7717]),
    ([nat_lit 1946], [nat_lit 107, nat_lit 688]),
    ([nat_lit 1947], [nat_lit 100, nat_lit 688]),
    ([nat_lit 1948], [nat_lit 382]),
    ([nat_lit 1949], [nat_lit 115, nat_lit 688]),
    ([nat_lit 1950], [nat_lit 7779]),
    ([nat_lit 1951], [nat_lit 7695]),
    ([nat_lit 1952], [nat_lit 7831]),
    ([nat_lit 1953], [nat_lit 7827]),
    ([nat_lit 1954], [nat_lit 39]),
    ([nat_lit 1955], [nat_lit 103, nat_lit 688]),
    ([nat_lit 1956], [nat_lit 113, nat_lit 688]),
    ([nat_lit 1957], [nat_lit 119]),
    ([nat_lit 1922, nat_lit 1941], [nat_lit 8319, nat_lit 112]),
    ([nat_lit 1922, nat_lit 1924], [nat_lit 8319, nat_lit 98]),
    ([nat_lit 1922, nat_lit 1932], [nat_lit 8319, nat_lit 116]),
    ([nat_lit 1922, nat_lit 1931], [nat_lit 8319, nat_lit 100]),
    ([nat_lit 1922, nat_lit 1943], [nat_lit 8319, nat_lit 99]),
    ([nat_lit 1922, nat_lit 1942], [nat_lit 8319, nat_lit 106]),
    ([nat_lit 1922, nat_lit 1939], [nat_lit 8319, nat_lit 7789]),
    ([nat_lit 1922, nat_lit 1937], [nat_lit 8319, nat_lit 7693]),
    ([nat_lit 1922, nat_lit 1926], [nat_lit 8319, nat_lit 107]),
    ([nat_lit 1922, nat_lit 1934], [nat_lit 8319, nat_lit 103])]
  deadConsonant := []
  subjoined := []
  vowelSign := [([nat_lit 1958], [nat_lit 97]),
    ([nat_lit 1959], [nat_lit 257]),
    ([nat_lit 1960], [nat_lit 105]),
    ([nat_lit 1961], [nat_lit 299]),
    ([nat_lit 1962], [nat_lit 117]),
    ([nat_lit 1963], [nat_lit 363]),
    ([nat_lit 1964], [nat_lit 101]),
    ([nat_lit 1965], [nat_lit 275]),
    ([nat_lit 1966], [nat_lit 111]),
    ([nat_lit 1967], [nat_lit 333])]
  vowel := [([nat_lit 1927, nat_lit 1958], [nat_lit 97]),
    ([nat_lit 1927, nat_lit 1959], [nat_lit 257]),
    ([nat_lit 1927, nat_lit 1960], [nat_lit 105]),
    ([nat_lit 1927, nat_lit 1961], [nat_lit 299]),
    ([nat_lit 1927, nat_lit 1962], [nat_lit 117]),
    ([nat_lit 1927, nat_lit 1963], [nat_lit 363]),
    ([nat_lit 1927, nat_lit 1964], [nat_lit 101]),
    ([nat_lit 1927, nat_lit 1965], [nat_lit 275]),
    ([nat_lit 1927, nat_lit 1966], [nat_lit 111]),
    ([nat_lit 1927, nat_lit 1967], [nat_lit 333])]
  vowelLength := []
  coda := [([nat_lit 1927, nat_lit 1968], [nat_lit 7830])]
  standalone := []
  virama := [([nat_lit 1968], [nat_lit 1968])]
  inherent := []
  accept := []
  preserve := []
  nfc := []
  visualRewrite := []
  readingNorm := []
  marks := [nat_lit 1968, nat_lit 1958, nat_lit 1959, nat_lit 1960, nat_lit 1961, nat_lit 1962, nat_lit 1963, nat_lit 1964, nat_lit 1965, nat_lit 1966, nat_lit 1967]
  noInherentVowel := true

end Nisaba.Data
