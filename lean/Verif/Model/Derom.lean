import Verif.Model.NtBrahmic
/-!
# Model of the Brahmic deromanizer of natural_translit

`brahmic/derom_inventory.py`, `brahmic/deromanizer.py`, the tables `TO_BRAHMIC` of
`brahmic/grapheme_inventory.py` and the parameters `deromanize` of `language_params/hi.py` and
`language_params/ta.py`.  A field of a mapping is an acceptor of finitely many strings and is the list
of them.  A rewrite rule is kept as the arguments of `rewrite_ls` (`Rw`); `Rw.rel` is the transducer.
-/
namespace Nisaba.NT
namespace Derom

/-- An attribute of `ltn_inventory.GRAPHEME_INVENTORY`: the string `gr`
(latin/ltn_inventory.py:67). -/
def ltn (a : Str) : Str := (byAlias Ltn.CHARS a).gr
/-- An attribute of `grapheme_inventory.TRANSLIT_INVENTORY`: the string `tr`
(brahmic/grapheme_inventory.py:243). -/
def iso (a : Str) : Str := (byAlias Brh.CHAR a).tr

/-! ## brahmic/derom_inventory.py -/

/-- derom_inventory.py:44-50 `_BRH_MONO_DICT_ARGS`, as aliases. -/
def MONO_ARGS : List (Str × Str × Str × Str) :=
  [(a!"A", a!"A_I", a!"AA", a!"AA_I"), (a!"E", a!"E_I", a!"EE", a!"EE_I"),
   (a!"I", a!"I_I", a!"II", a!"II_I"), (a!"O", a!"O_I", a!"OO", a!"OO_I"),
   (a!"U", a!"U_I", a!"UU", a!"UU_I")]
/-- derom_inventory.py:51-56 `_BRH_DIPH_DICT_ARGS`. -/
def DIPH_ARGS : List (Str × Str) :=
  [(a!"AI", a!"AI_I"), (a!"AU", a!"AU_I"), (a!"EE", a!"EE_I"), (a!"OO", a!"OO_I")]

/-- derom_inventory.py:35-41 `_get_from_dict`.  `none` is `ty.MISSING`.  A later entry of a
dictionary replaces an earlier one with the same key, so the last one is taken. -/
def getFromDict (d : List (Str × Str)) (key : Str) : Option Str :=
  (d.reverse.find? (fun e => seq e.1 key)).map Prod.snd

/-- derom_inventory.py:59-67 `_sign_independent_dict`. -/
def SIGN_INDEPENDENT : List (Str × Str) :=
  (MONO_ARGS.map fun a => (iso a.1, iso a.2.1)) ++ (DIPH_ARGS.map fun a => (iso a.1, iso a.2)) ++
    (MONO_ARGS.map fun a => (iso a.2.2.1, iso a.2.2.2))
/-- derom_inventory.py:72-73 `_independent_vowel`. -/
def independentVowel (s : Str) : Option Str := getFromDict SIGN_INDEPENDENT s

/-- derom_inventory.py:76-81 `_short_long_dict`. -/
def SHORT_LONG : List (Str × Str) :=
  (MONO_ARGS.map fun a => (iso a.1, iso a.2.2.1)) ++
    (MONO_ARGS.map fun a => (iso a.2.1, iso a.2.2.2))
/-- derom_inventory.py:86-87 `_long_vowel`. -/
def longVowel (s : Str) : Option Str := getFromDict SHORT_LONG s

/-- derom_inventory.py:89-99 `_UNASP_ASP_DICT`. -/
def UNASP_ASP : List (Str × Str) :=
  [(iso a!"B", iso a!"BH"), (iso a!"C", iso a!"CH"), (iso a!"D", iso a!"DH"),
   (iso a!"G", iso a!"GH"), (iso a!"J", iso a!"JH"), (iso a!"K", iso a!"KH"),
   (iso a!"P", iso a!"PH"), (iso a!"T", iso a!"TH")]
/-- derom_inventory.py:102-103 `_aspirated_consonant`. -/
def aspiratedConsonant (s : Str) : Option Str := getFromDict UNASP_ASP s

/-- derom_inventory.py:106-163 `DeromMapping`: the alias, the number of Latin letters, the priority and
the fields by name. -/
structure Mapping where
  alias : Str
  romLen : Nat
  priority : Nat
  fields : List (Str × List Str)
deriving DecidableEq

/-- derom_inventory.py:157-163 `DeromMapping.__init__`. -/
def mkMapping (alias : Str) (rom brh : List Str) (priority : Nat) : Mapping :=
  ⟨alias, rom.length, rom.length + priority, [(a!"rom", [rom.flatten]), (a!"brh", [brh.flatten])]⟩

/-- derom_inventory.py:245-254 `add_field`, `add_fst_field`, `add_fst_fields`: a field that exists is
kept, a missing value adds no field. -/
def addField (m : Mapping) (f : Str) (v : Option (List Str)) : Mapping :=
  match v with
  | none => m
  | some v => if m.fields.any (fun e => seq e.1 f) then m else { m with fields := m.fields ++ [(f, v)] }

/-- derom_inventory.py:256-257 `get`.  The empty list stands for an attribute error; it is not reached
(`fields_defined`). -/
def Mapping.get (m : Mapping) (f : Str) : List Str :=
  match m.fields.find? (fun e => seq e.1 f) with
  | some e => e.2
  | none => []

/-- derom_inventory.py:165-180 `vowel`. -/
def vowel (alias : Str) (rom brh : List Str) (priority : Nat := 0) : Mapping :=
  let new := mkMapping alias rom brh priority
  let r := rom.flatten
  let b := brh.flatten
  let one := fun (o : Option Str) => o.map (fun s => [s])
  addField (addField (addField (addField new
    a!"rom_l" (some [r ++ r]))
    a!"brh_i" (one (independentVowel b)))
    a!"brh_l" (one (longVowel b)))
    a!"brh_l_i" (one ((longVowel b).bind independentVowel))

/-- derom_inventory.py:182-215 `consonant`. -/
def consonant (alias : Str) (rom brh : List Str) (priority : Nat := 0) : Mapping :=
  let new := mkMapping alias rom brh priority
  let r := rom.flatten
  let b := brh.flatten
  let bv := b ++ iso a!"VIR"
  let rl := (r ++ r) :: (if rom.length > 1 then [rom.headD [] ++ r] else [])
  let new := addField (addField (addField (addField (addField new
    a!"rom_h" (some [r ++ ltn a!"H"]))
    a!"rom_l" (some rl))
    a!"brh_v" (some [bv]))
    a!"brh_l" (some [bv ++ b]))
    a!"brh_l_v" (some [bv ++ bv])
  match aspiratedConsonant b with
  | none => new
  | some asp =>
    let av := asp ++ iso a!"VIR"
    addField (addField (addField (addField (addField (addField (addField (addField new
      a!"rom_l_h" (some (rl.map (fun x => x ++ ltn a!"H"))))
      a!"rom_h_l" (some [r ++ ltn a!"H" ++ (r ++ ltn a!"H")]))
      a!"brh_asp" (some [asp]))
      a!"brh_asp_v" (some [av]))
      a!"brh_l_asp" (some [bv ++ asp]))
      a!"brh_l_asp_v" (some [bv ++ av]))
      a!"brh_asp_l" (some [av ++ asp]))
      a!"brh_asp_l_v" (some [av ++ av])

/-- derom_inventory.py:217-234 `foreign_consonant`. -/
def foreignConsonant (alias : Str) (rom brh : List Str) (frg : Str) (priority : Nat := 0) : Mapping :=
  let new := consonant alias rom brh priority
  let fv := frg ++ iso a!"VIR"
  addField (addField (addField (addField new
    a!"frg" (some [frg]))
    a!"frg_v" (some [fv]))
    a!"frg_l" (some [fv ++ frg]))
    a!"frg_l_v" (some [fv ++ fv])

/-- derom_inventory.py:259-260 `high_priority`. -/
def Mapping.highPriority (m : Mapping) : Bool := decide (m.romLen < m.priority)

/-- derom_inventory.py:276-319 `make_inventory`: the attributes of `DEROMANIZATION_INVENTORY`. -/
def d_a : Mapping := vowel a!"a" [ltn a!"A"] [iso a!"A"]
def d_e : Mapping := vowel a!"e" [ltn a!"E"] [iso a!"E"]
def d_i : Mapping := vowel a!"i" [ltn a!"I"] [iso a!"I"]
def d_o : Mapping := vowel a!"o" [ltn a!"O"] [iso a!"O"]
def d_u : Mapping := vowel a!"u" [ltn a!"U"] [iso a!"U"]
def d_ai : Mapping := vowel a!"ai" [ltn a!"A", ltn a!"I"] [iso a!"AI"]
def d_au : Mapping := vowel a!"au" [ltn a!"A", ltn a!"U"] [iso a!"AU"]
def d_ae_ee : Mapping := vowel a!"ae_ee" [ltn a!"A", ltn a!"E"] [iso a!"EE"]
def d_oa_oo : Mapping := vowel a!"oa_oo" [ltn a!"O", ltn a!"A"] [iso a!"OO"]
def d_b : Mapping := consonant a!"b" [ltn a!"B"] [iso a!"B"]
def d_b_p : Mapping := consonant a!"b_p" [ltn a!"B"] [iso a!"P"]
def d_ch : Mapping := consonant a!"ch" [ltn a!"C", ltn a!"H"] [iso a!"C"]
def d_d : Mapping := consonant a!"d" [ltn a!"D"] [iso a!"D"]
def d_d_t : Mapping := consonant a!"d_t" [ltn a!"D"] [iso a!"T"]
def d_g : Mapping := consonant a!"g" [ltn a!"G"] [iso a!"G"]
def d_g_k : Mapping := consonant a!"g_k" [ltn a!"G"] [iso a!"K"]
def d_j : Mapping := consonant a!"j" [ltn a!"J"] [iso a!"J"]
def d_k : Mapping := consonant a!"k" [ltn a!"K"] [iso a!"K"]
def d_p : Mapping := consonant a!"p" [ltn a!"P"] [iso a!"P"]
def d_t : Mapping := consonant a!"t" [ltn a!"T"] [iso a!"T"]
def d_c : Mapping := consonant a!"c" [ltn a!"C"] [iso a!"C"]
def d_h : Mapping := consonant a!"h" [ltn a!"H"] [iso a!"H"]
def d_l : Mapping := consonant a!"l" [ltn a!"L"] [iso a!"L"]
def d_m : Mapping := consonant a!"m" [ltn a!"M"] [iso a!"M"]
def d_n : Mapping := consonant a!"n" [ltn a!"N"] [iso a!"N"]
def d_q : Mapping := consonant a!"q" [ltn a!"Q"] [iso a!"K"]
def d_r : Mapping := consonant a!"r" [ltn a!"R"] [iso a!"R"]
def d_s : Mapping := consonant a!"s" [ltn a!"S"] [iso a!"S"]
def d_sh : Mapping := consonant a!"sh" [ltn a!"S", ltn a!"H"] [iso a!"SH"]
def d_v : Mapping := consonant a!"v" [ltn a!"V"] [iso a!"V"]
def d_w : Mapping := consonant a!"w" [ltn a!"W"] [iso a!"V"]
def d_x : Mapping := consonant a!"x" [ltn a!"X"] [iso a!"K", iso a!"VIR", iso a!"S"]
def d_y : Mapping := consonant a!"y" [ltn a!"Y"] [iso a!"Y"]
def d_tr_rr : Mapping := consonant a!"tr_rr" [ltn a!"T", ltn a!"R"] [iso a!"RR"]
def d_zh_lr : Mapping := consonant a!"zh_lr" [ltn a!"Z", ltn a!"H"] [iso a!"LR"] 1
def d_f : Mapping := foreignConsonant a!"f" [ltn a!"F"] [iso a!"PH"] (iso a!"F")
def d_z : Mapping := foreignConsonant a!"z" [ltn a!"Z"] [iso a!"J"] (iso a!"Z")

/-! ## brahmic/deromanizer.py: rewrite rules -/

/-- The contexts of the rules of deromanizer.py: `eps` is the object `al.EPSILON`, `nul` the string
'', the default of `_rw_fields`. -/
inductive Con
  | eps | nul | schCons | vowel | bow | bowSch | bp | consNm | onset | onsetEow | vowelSVir | eow
deriving DecidableEq

/-- grapheme_inventory.py:218-224, `tr` unions: char.py:223-224 `thing_tr_union`. -/
def trUnion (cs : List Chr) : Lang := fun x => ∃ c ∈ cs, x = c.tr
/-- latin/ltn_inventory.py:63-64, `gr` unions. -/
def grUnion (cs : List Chr) : Lang := fun x => ∃ c ∈ cs, x = c.gr

/-- The acceptor of a context; `none` for `al.EPSILON`.
deromanizer.py:325-326, 336-337, 361, 371, 379, 442, 446-447, 453, 459-460 and
rewrite_functions.py:110 (`rewrite_word_final`). -/
def Con.lang : Con → Option Lang
  | .eps => none
  | .nul => some (str [])
  | .schCons => some (trUnion Brh.SCHWA_BEARING)
  | .vowel => some (grUnion Ltn.ASCII_VOWEL)
  | .bow => some BOW
  | .bowSch => some (cat BOW (trUnion Brh.SCHWA_BEARING))
  | .bp => some (alt (str (ltn a!"B")) (str (ltn a!"P")))
  | .consNm => some (alt (minus (grUnion Ltn.ASCII_CONS) (alt (str (ltn a!"N")) (str (ltn a!"M")))) EOW)
  | .onset => some (trUnion Brh.ONSET_CONSONANT)
  | .onsetEow => some (cat (trUnion Brh.ONSET_CONSONANT) EOW)
  | .vowelSVir => some (alt (trUnion Brh.VOWEL_SIGN) (str (iso a!"VIR")))
  | .eow => some EOW

/-- The arguments of `rw.rewrite_ls`: pairs of acceptors and the contexts.  `rw.rewrite` is the case of
one pair. -/
structure Rw where
  ls : List (List Str × List Str)
  preceding : Con
  following : Con
deriving DecidableEq

/-- The transducer of a rule (utils/rewrite_functions.py:67-87). -/
def Rw.rel (w : Rw) : Rel :=
  rewriteLs (w.ls.map fun p => ((fun x => x ∈ p.1 : Lang), (fun x => x ∈ p.2 : Lang)))
    w.preceding.lang w.following.lang

/-- utils/rewrite_functions.py:67-76 `rewrite`. -/
def rw1 (old new : Str) (preceding following : Con := .eps) : Rw := ⟨[([old], [new])], preceding, following⟩
/-- utils/rewrite_functions.py:323-333 `insert`. -/
def insert (syms : Str) (preceding following : Con := .eps) : Rw := rw1 [] syms preceding following

/-- deromanizer.py:331-348 `_rw_fields`. -/
def rwFields (ms : List Mapping) (old new : Str) (preceding following : Con := .nul) : List Rw :=
  if ms.isEmpty then [] else [⟨ms.map fun m => (m.get old, m.get new), preceding, following⟩]

/-- deromanizer.py:350-363 `_rw_vowel`. -/
def rwVowel (romL brhL : Bool) (ms : List Mapping) : List Rw :=
  let old := if romL then a!"rom_l" else a!"rom"
  let new := if brhL then a!"brh_l" else a!"brh"
  rwFields ms old new .schCons ++ rwFields ms old (new ++ a!"_i")

/-- deromanizer.py:365-371 `_rw_ind_to_sign`. -/
def rwIndToSign (brhL : Bool) (ms : List Mapping) : List Rw :=
  let new := if brhL then a!"brh_l" else a!"brh"
  rwFields ms (new ++ a!"_i") new .bow

/-- deromanizer.py:373-381 `_rw_cons_vir`. -/
def rwConsVir (ms : List Mapping) (old new : Str) : List Rw :=
  rwFields ms old new .nul .vowel ++ rwFields ms old (new ++ a!"_v")

/-- deromanizer.py:383-411 `_rw_cons`. -/
def rwCons (schwaDeletion : Bool) (ms : List Mapping) (old : Str := a!"rom") (new : Str := a!"brh")
    (single : Bool := true) (geminated : Bool := true) : List Rw :=
  let rewriter := fun o n => if schwaDeletion then rwFields ms o n else rwConsVir ms o n
  (if geminated then rewriter (old ++ a!"_l") (new ++ a!"_l") else []) ++
    (if single then rewriter old new else [])

/-- deromanizer.py:415-416 `_rw_gem_only`. -/
def rwGemOnly (sd : Bool) (ms : List Mapping) : List Rw := rwCons sd ms (single := false)

/-- deromanizer.py:418-429 `_rw_aspiration`; `single` and `geminated` are always the defaults. -/
def rwAspiration (sd : Bool) (ms : List Mapping) : List Rw :=
  (if sd then rwFields ms a!"rom_l_h" a!"brh_l_asp" else []) ++ rwCons sd ms a!"rom_h" a!"brh_asp"

/-- deromanizer.py:431-434 `_rw_drop_aspiration`. -/
def rwDropAspiration (sd : Bool) (ms : List Mapping) : List Rw := rwCons sd ms a!"rom_h"

/-- deromanizer.py:436-437 `_rw_foreign`. -/
def rwForeign (sd : Bool) (ms : List Mapping) : List Rw := rwCons sd ms (new := a!"frg")

/-- deromanizer.py:441-442 `_rw_cluster_wi`. -/
def rwClusterWi : List Rw := [insert (iso a!"VIR") .bowSch .onset]
/-- deromanizer.py:444-448 `_rw_cluster_wf`. -/
def rwClusterWf : List Rw :=
  [rw1 (iso a!"A") (iso a!"AA") .eps .eow, insert (iso a!"VIR") .schCons .onsetEow]
/-- deromanizer.py:452-453 `_rw_nasal_labial`. -/
def rwNasalLabial : List Rw := [rw1 (ltn a!"M") (iso a!"ANS") .vowel .bp]
/-- deromanizer.py:455-461 `_rw_ans_n`. -/
def rwAnsN : List Rw := [rw1 (ltn a!"N") (iso a!"ANS") .vowel .consNm]

/-! ## brahmic/deromanizer.py: parameters -/

/-- deromanizer.py:94-110, the arguments of `params`. -/
structure Params where
  deva : Bool
  schwaDeletion : Bool := false
  schwaDeletionWf : Bool := false
  monophthong : List Mapping := []
  alwaysLong : List Mapping := []
  diphthong : List Mapping := []
  hasAspirated : List Mapping := []
  dropsAspirated : List Mapping := []
  noAspirated : List Mapping := []
  onlyGeminated : List Mapping := []
  foreign : List Mapping := []
  anusvaraN : Bool := false
  nasalAssimilation : Bool := true

/-- A group: mappings by priority. -/
abbrev Group := List (Nat × List Mapping)

/-- deromanizer.py:169-192 `_add_to_groups` for one member and one group. -/
def addMember : Group → Mapping → Group
  | [], m => [(m.priority, [m])]
  | (p, ms) :: g, m =>
    if p = m.priority then (p, if ms.any (fun k => seq k.alias m.alias) then ms else ms ++ [m]) :: g
    else (p, ms) :: addMember g m
/-- deromanizer.py:169-192 `_add_to_groups` for one group. -/
def addToGroup (g : Group) (ms : List Mapping) : Group := ms.foldl addMember g

/-- Insertion into a list sorted by falling priority. -/
def insertDesc (e : Nat × List Mapping) : Group → Group
  | [] => [e]
  | f :: g => if f.1 < e.1 then e :: f :: g else f :: insertDesc e g
/-- deromanizer.py:224, `sorted(group.keys(), reverse=True)`. -/
def sortDesc (g : Group) : Group := g.foldr insertDesc []

/-- deromanizer.py:194-229 `_apply_by_priority`: what is added to `high_priority` and to the rule. -/
def applyByPriority (g : Group) (rewriter : List Mapping → List Rw) : List Rw × List Rw :=
  let ps := (sortDesc g).map Prod.snd
  (ps.flatMap fun ms => rewriter (ms.filter Mapping.highPriority),
   ps.flatMap fun ms => rewriter (ms.filter fun m => !m.highPriority))

variable (P : Params)

/-- deromanizer.py:237-239 and 261-265, the groups. -/
def gMono : Group := addToGroup [] P.monophthong
def gLong : Group := addToGroup [] P.alwaysLong
def gDiph : Group := addToGroup [] P.diphthong
def gVowel : Group := addToGroup (addToGroup (addToGroup [] P.monophthong) P.alwaysLong) P.diphthong
def gAsp : Group := addToGroup [] P.hasAspirated
def gDrop : Group := addToGroup [] P.dropsAspirated
def gGem : Group := addToGroup [] P.onlyGeminated
def gForeign : Group := addToGroup [] P.foreign
def gCons : Group :=
  addToGroup (addToGroup (addToGroup (addToGroup (addToGroup [] P.hasAspirated) P.dropsAspirated)
    P.noAspirated) P.onlyGeminated) P.foreign

/-- deromanizer.py:240-251 and 266-276, the calls of `_apply_by_priority` in their order. -/
def aMonoLong := applyByPriority (gMono P) (rwVowel true true)
def aAlways := applyByPriority (gLong P) (rwVowel false true)
def aMonoBase := applyByPriority (gMono P) (rwVowel false false)
def aDiph := applyByPriority (gDiph P) (rwVowel false false)
def aIndLong := applyByPriority (gMono P) (rwIndToSign true)
def aInd := applyByPriority (gVowel P) (rwIndToSign false)
def aForeign := applyByPriority (gForeign P) (rwForeign P.schwaDeletion)
def aDrop := applyByPriority (gDrop P) (rwDropAspiration P.schwaDeletion)
def aAsp := applyByPriority (gAsp P) (rwAspiration P.schwaDeletion)
def aGem := applyByPriority (gGem P) (rwGemOnly P.schwaDeletion)
def aCons := applyByPriority (gCons P) (rwCons P.schwaDeletion)

/-- The list `high_priority` after deromanizer.py:143-146. -/
def highPriority : List Rw :=
  (aMonoLong P).1 ++ (aAlways P).1 ++ (aMonoBase P).1 ++ (aDiph P).1 ++ (aIndLong P).1 ++ (aInd P).1 ++
    (aForeign P).1 ++ (aDrop P).1 ++ (aAsp P).1 ++ (aGem P).1 ++ (aCons P).1

/-- deromanizer.py:163-167 `_set_anusvara`. -/
def anusvara : List Rw :=
  if P.anusvaraN then (if P.nasalAssimilation then rwNasalLabial else []) ++ rwAnsN else []

/-- deromanizer.py:150-161 `_set_schwa_deletion`. -/
def clusterVir : List Rw :=
  if P.schwaDeletion then rwClusterWi ++ (if P.schwaDeletionWf then rwClusterWf else []) else []

/-- The list `ind_to_sign`, deromanizer.py:248-251. -/
def indToSign : List Rw := (aIndLong P).2 ++ (aInd P).2

/-- deromanizer.py:278-298 `rules` without arguments: the list `typ_ops`.  The list `mono_base_long`
is always empty. -/
def typOps : List Rw :=
  highPriority P ++ anusvara P ++ (aForeign P).2 ++ (aDrop P).2 ++ (aAsp P).2 ++ (aGem P).2 ++
    (aCons P).2 ++ (aMonoLong P).2 ++ (aDiph P).2 ++ ((aAlways P).2 ++ (aMonoBase P).2) ++ clusterVir P

/-- deromanizer.py:322-329 `_rw_typ2iso`, without the printing of glyphs. -/
def typ2iso : List Rw :=
  [insert (iso a!"A") .schCons, rw1 (iso a!"A") [] .eps .vowelSVir] ++ indToSign P

/-- brahmic/grapheme_inventory.py:277-334 `TO_BRAHMIC`: alias of the character and its letters in
Devanagari and Tamil. -/
def TO_BRAHMIC : List (Str × Option Str × Option Str) :=
  [(a!"VIR", some [0x94d], some [0xbcd]), (a!"A", some [], some []),
   (a!"A_I", some a!"अ", some a!"அ"), (a!"AA", some [0x93e], some [0xbbe]),
   (a!"AA_I", some a!"आ", some a!"ஆ"), (a!"E", some [0x946], some [0xbc6]),
   (a!"E_I", some a!"ऎ", some a!"எ"), (a!"EE", some [0x947], some [0xbc7]),
   (a!"EE_I", some a!"ए", some a!"ஏ"), (a!"I", some [0x93f], some [0xbbf]),
   (a!"I_I", some a!"इ", some a!"இ"), (a!"II", some [0x940], some [0xbc0]),
   (a!"II_I", some a!"ई", some a!"ஈ"), (a!"O", some [0x94a], some [0xbca]),
   (a!"O_I", some a!"ऒ", some a!"ஒ"), (a!"OO", some [0x94b], some [0xbcb]),
   (a!"OO_I", some a!"ओ", some a!"ஓ"), (a!"U", some [0x941], some [0xbc1]),
   (a!"U_I", some a!"उ", some a!"உ"), (a!"UU", some [0x942], some [0xbc2]),
   (a!"UU_I", some a!"ऊ", some a!"ஊ"), (a!"AI", some [0x948], some [0xbc8]),
   (a!"AI_I", some a!"ऐ", some a!"ஐ"), (a!"AU", some [0x94c], some [0xbcc]),
   (a!"AU_I", some a!"औ", some a!"ஔ"), (a!"B", some a!"ब", none), (a!"BH", some a!"भ", none),
   (a!"C", some a!"च", some a!"ச"), (a!"CH", some a!"छ", none), (a!"D", some a!"द", none),
   (a!"DH", some a!"ध", none), (a!"G", some a!"ग", none), (a!"GH", some a!"घ", none),
   (a!"H", some a!"ह", some a!"ஹ"), (a!"J", some a!"ज", some a!"ஜ"),
   (a!"Z", some [0x91c, 0x93c], some [0xb83, 0xb9c]), (a!"JH", some a!"झ", none),
   (a!"K", some a!"क", some a!"க"), (a!"KH", some a!"ख", none), (a!"L", some a!"ल", some a!"ல"),
   (a!"LR", none, some a!"ழ"), (a!"M", some a!"म", some a!"ம"), (a!"N", some a!"न", some a!"ந"),
   (a!"NA", none, some a!"ன"), (a!"P", some a!"प", some a!"ப"), (a!"PH", some a!"फ", none),
   (a!"F", some [0x92b, 0x93c], some [0xb83, 0xbaa]), (a!"R", some a!"र", some a!"ர"),
   (a!"RR", none, some a!"ற"), (a!"S", some a!"स", some a!"ஸ"), (a!"SH", some a!"श", some a!"ஶ"),
   (a!"T", some a!"त", some a!"த"), (a!"TH", some a!"थ", none), (a!"V", some a!"व", some a!"வ"),
   (a!"Y", some a!"य", some a!"ய"), (a!"ANS", some [0x902], some [])]

/-- grapheme_inventory.py:337-356 `get_brh` and `ls_tr2brh`: pairs of a translit and its letters. -/
def lsTr2brh (deva : Bool) : List (Str × Str) :=
  TO_BRAHMIC.map fun e => (iso e.1, (if deva then e.2.1 else e.2.2).getD [])

/-- deromanizer.py:318-320 `_rw_typ2brh`. -/
def typ2brh (m : Mode) (deva : Bool) : Rel :=
  StarR (unionR ((lsTr2brh deva).map fun e => cross (str e.1) (str (m.labels e.2))))

/-- deromanizer.py:300-302 `to_iso`. -/
def toIso (m : Mode) : Rel :=
  compose ([readGlyph m Ltn.ASCII_LC] ++ (typOps P).map Rw.rel ++ (typ2iso P).map Rw.rel ++
    [printGlyph m Brh.CHAR])

/-- deromanizer.py:304-310 `to_brahmic`; the script is one of `DEROM_SCRIPTS`. -/
def toBrahmic (m : Mode) : Rel :=
  compose ([readGlyph m Ltn.ASCII_LC] ++ (typOps P).map Rw.rel ++ [typ2brh m P.deva])

/-! ## language_params -/

/-- language_params/hi.py:31-48 `deromanize`. -/
def hi : Params :=
  { deva := true
    schwaDeletion := true
    schwaDeletionWf := true
    monophthong := [d_a, d_e, d_i, d_o, d_u]
    alwaysLong := [d_e, d_o]
    diphthong := [d_ai, d_au]
    hasAspirated := [d_b, d_ch, d_d, d_g, d_j, d_k, d_p, d_t]
    noAspirated := [d_c, d_h, d_l, d_m, d_n, d_q, d_r, d_s, d_sh, d_v, d_w, d_x, d_y]
    foreign := [d_f, d_z]
    anusvaraN := true
    nasalAssimilation := true }

/-- language_params/ta.py:30-43 `deromanize`. -/
def ta : Params :=
  { deva := false
    monophthong := [d_a, d_e, d_i, d_o, d_u]
    diphthong := [d_ai, d_au, d_ae_ee, d_oa_oo]
    dropsAspirated := [d_b_p, d_ch, d_d_t, d_g_k, d_j, d_k, d_p, d_t]
    noAspirated := [d_c, d_h, d_l, d_m, d_n, d_q, d_r, d_s, d_sh, d_v, d_w, d_x, d_y, d_zh_lr]
    onlyGeminated := [d_tr_rr]
    foreign := [d_f, d_z] }

end Derom
end Nisaba.NT
