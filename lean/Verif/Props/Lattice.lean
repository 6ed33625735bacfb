import Verif.Model.Lattice
/-!
# C47: lattices
-/
namespace Nisaba.Props
open Nisaba Nisaba.Lattice

/-- Every state belongs to the FST of its node, and no two nodes of one FST share a state. -/
structure WorldOk (w : World) : Prop where
  range : ∀ (i : Nat) (n : Node), w.nodes[i]? = some n → n.fst < w.fsts.length
  bound : ∀ (i : Nat) (n : Node) (s : Nat), w.nodes[i]? = some n → n.state = some s →
    ∃ k, w.fsts[n.fst]? = some k ∧ s < k
  inj : ∀ (i j : Nat) (n m : Node) (s : Nat), w.nodes[i]? = some n → w.nodes[j]? = some m →
    n.fst = m.fst → n.state = some s → m.state = some s → i = j

/-- Nodes of the lattice. -/
def Lat.owns (l : Lat) (i : Nat) : Prop :=
  (l.base ≤ i ∧ i < l.base + l.width * l.height) ∨ i = l.error

structure LatOk (w : World) (l : Lat) : Prop where
  fst : l.fst < w.fsts.length
  nodes : ∀ i, Lat.owns l i → ∃ n, w.nodes[i]? = some n ∧ n.fst = l.fst
  error : l.error < l.base ∨ l.base + l.width * l.height ≤ l.error
  coords : ∀ x y : Nat, x < l.width → y < l.height → ∃ n, w.nodes[l.base + y * l.width + x]? = some n ∧
    n.x = x ∧ n.y = y

theorem node_owned (l : Lat) (x y : Int) : Lat.owns l (l.node x y) := by
  unfold Lat.node Lat.owns
  split
  · next h =>
    left
    obtain ⟨h1, h2, h3, h4⟩ := h
    have hx : x.toNat < l.width := by omega
    have hy : y.toNat < l.height := by omega
    have : y.toNat * l.width + l.width ≤ l.width * l.height := by
      have := Nat.mul_le_mul_left l.width (show y.toNat + 1 ≤ l.height by omega)
      rw [Nat.mul_add, Nat.mul_one, Nat.mul_comm l.width y.toNat] at this
      exact this
    omega
  · right; rfl

theorem node_inj (l : Lat) (w : World) (h : LatOk w l) (x y x' y' : Int)
    (hr : 0 ≤ x ∧ x < l.width ∧ 0 ≤ y ∧ y < l.height)
    (he : l.node x y = l.node x' y') : x = x' ∧ y = y' := by
  have hn := node_owned l x y
  unfold Lat.node at he
  rw [if_pos hr] at he
  have hgrid : l.base ≤ l.base + y.toNat * l.width + x.toNat ∧
      l.base + y.toNat * l.width + x.toNat < l.base + l.width * l.height := by
    refine ⟨by omega, ?_⟩
    have : y.toNat * l.width + l.width ≤ l.width * l.height := by
      have := Nat.mul_le_mul_left l.width (show y.toNat + 1 ≤ l.height by omega)
      rw [Nat.mul_add, Nat.mul_one, Nat.mul_comm l.width y.toNat] at this
      exact this
    omega
  split at he
  · next h' =>
    have hx : x.toNat < l.width := by omega
    have hx' : x'.toNat < l.width := by omega
    have e : y.toNat * l.width + x.toNat = y'.toNat * l.width + x'.toNat := by omega
    have e1 : x.toNat = x'.toNat := by
      have := congrArg (· % l.width) e
      simp only [Nat.mul_add_mod_self_right, Nat.mod_eq_of_lt hx, Nat.mod_eq_of_lt hx'] at this
      exact this
    have e2 : y.toNat = y'.toNat := by
      rw [e1] at e
      have e3 : y.toNat * l.width = y'.toNat * l.width := by omega
      exact Nat.eq_of_mul_eq_mul_right (by omega) e3
    omega
  · have := h.error; omega

/-! ### Assigning a state -/

theorem assign_nodes (w : World) (f i j : Nat) :
    (w.assign f i).nodes[j]? = if i = j then
      (w.nodes[j]?).map (fun n => { n with state := some ((w.fsts[f]?).getD 0) })
    else w.nodes[j]? := by
  simp only [World.assign, List.getElem?_modify]
  split
  · rfl
  · cases w.nodes[j]? <;> rfl

theorem assign_fsts (w : World) (f i j : Nat) :
    (w.assign f i).fsts[j]? = if f = j then (w.fsts[j]?).map (· + 1) else w.fsts[j]? := by
  simp only [World.assign, List.getElem?_modify]
  split
  · rfl
  · cases w.fsts[j]? <;> rfl

theorem assign_fst (w : World) (f i j : Nat) (n : Node) (h : (w.assign f i).nodes[j]? = some n) :
    ∃ m, w.nodes[j]? = some m ∧ n.fst = m.fst ∧
      (i ≠ j → n = m) ∧ (i = j → n.state = some ((w.fsts[f]?).getD 0)) := by
  rw [assign_nodes] at h
  split at h
  · next e =>
    cases hm : w.nodes[j]? with
    | none => rw [hm] at h; simp at h
    | some m =>
      rw [hm] at h
      simp only [Option.map_some, Option.some.injEq] at h
      subst h
      exact ⟨m, rfl, rfl, fun h => absurd e h, fun _ => rfl⟩
  · next e => exact ⟨n, h, rfl, fun _ => rfl, fun h => absurd h e⟩

theorem assign_ok (w : World) (f i : Nat) (n : Node) (h : WorldOk w) (hn : w.nodes[i]? = some n)
    (hf : n.fst = f) : WorldOk (w.assign f i) := by
  have hlt := h.range i n hn
  obtain ⟨k, hk⟩ : ∃ k, w.fsts[f]? = some k := by
    rw [hf] at hlt; exact ⟨_, List.getElem?_eq_getElem hlt⟩
  have hlen : (w.assign f i).fsts.length = w.fsts.length := by simp [World.assign]
  have hcount : ∀ g c, w.fsts[g]? = some c → ∃ c', (w.assign f i).fsts[g]? = some c' ∧ c ≤ c' ∧
      (g = f → c' = c + 1) := by
    intro g c hc
    rw [assign_fsts]
    split
    · exact ⟨c + 1, by rw [hc]; rfl, by omega, fun _ => rfl⟩
    · next e => exact ⟨c, hc, by omega, fun h => absurd h.symm e⟩
  refine ⟨?_, ?_, ?_⟩
  · intro j m hm
    obtain ⟨m', hm', e, _⟩ := assign_fst w f i j m hm
    rw [hlen, e]; exact h.range j m' hm'
  · intro j m s hm hs
    obtain ⟨m', hm', e, e1, e2⟩ := assign_fst w f i j m hm
    by_cases hij : i = j
    · subst hij
      have := e2 rfl
      rw [hs, hk] at this
      simp only [Option.getD_some, Option.some.injEq] at this
      rw [hn] at hm'
      obtain rfl := Option.some.inj hm'
      obtain ⟨c', hc', hle, heq⟩ := hcount f k hk
      refine ⟨c', by rw [e, hf]; exact hc', ?_⟩
      have := heq rfl
      omega
    · have := e1 hij
      subst this
      obtain ⟨c, hc, hlt'⟩ := h.bound j m s hm' hs
      obtain ⟨c', hc', hle, _⟩ := hcount _ c hc
      exact ⟨c', hc', by omega⟩
  · intro a b x y s ha hb hfst hsx hsy
    obtain ⟨x', hx', ex, ex1, ex2⟩ := assign_fst w f i a x ha
    obtain ⟨y', hy', ey, ey1, ey2⟩ := assign_fst w f i b y hb
    by_cases hia : i = a
    · by_cases hib : i = b
      · omega
      · exfalso
        have hy := ey1 hib
        subst hy
        have h1 := ex2 hia
        rw [hsx, hk] at h1
        simp only [Option.getD_some, Option.some.injEq] at h1
        subst hia
        rw [hn] at hx'
        obtain rfl := Option.some.inj hx'
        obtain ⟨c, hc, hlt'⟩ := h.bound b y s hy' hsy
        rw [← hfst, ex, hf, hk] at hc
        have := Option.some.inj hc
        omega
    · have hx := ex1 hia
      subst hx
      by_cases hib : i = b
      · exfalso
        have h1 := ey2 hib
        rw [hsy, hk] at h1
        simp only [Option.getD_some, Option.some.injEq] at h1
        subst hib
        rw [hn] at hy'
        obtain rfl := Option.some.inj hy'
        obtain ⟨c, hc, hlt'⟩ := h.bound a x s hx' hsx
        rw [hfst, ey, hf, hk] at hc
        have := Option.some.inj hc
        omega
      · have hy := ey1 hib
        subst hy
        exact h.inj a b x y s hx' hy' hfst hsx hsy

theorem assign_lat (w : World) (f i : Nat) (l : Lat) (h : LatOk w l) : LatOk (w.assign f i) l := by
  refine ⟨by simpa [World.assign] using h.fst, ?_, h.error, ?_⟩
  · intro j hj
    obtain ⟨n, hn, e⟩ := h.nodes j hj
    rw [assign_nodes]
    split
    · exact ⟨{ n with state := some ((w.fsts[f]?).getD 0) }, by rw [hn]; rfl, e⟩
    · exact ⟨n, hn, e⟩
  · intro x y hx hy
    obtain ⟨n, hn, e⟩ := h.coords x y hx hy
    rw [assign_nodes]
    split
    · exact ⟨{ n with state := some ((w.fsts[f]?).getD 0) }, by rw [hn]; rfl, e⟩
    · exact ⟨n, hn, e⟩

theorem state_nodes (w : World) (l : Lat) (x y : Int) (hw : WorldOk w) (hl : LatOk w l) :
    WorldOk (w.state l x y).1 ∧ (∀ l', LatOk w l' → LatOk (w.state l x y).1 l') := by
  unfold World.state
  simp only []
  split
  · exact ⟨hw, fun _ h => h⟩
  · obtain ⟨n, hn, e⟩ := hl.nodes _ (node_owned l x y)
    exact ⟨assign_ok w l.fst _ n hw hn e, fun l' h => assign_lat w l.fst _ l' h⟩

/-- After the call the node has the returned state. -/
theorem state_result (w : World) (l : Lat) (x y : Int) (hl : LatOk w l) :
    (((w.state l x y).1.nodes[l.node x y]?).bind (·.state)) = some (w.state l x y).2 := by
  obtain ⟨n, hn, e⟩ := hl.nodes _ (node_owned l x y)
  unfold World.state
  simp only []
  split
  · next s hs => exact hs
  · rw [assign_nodes, if_pos rfl, hn]
    rfl

/-- Node states, once assigned, stay. -/
def Keeps (w w' : World) : Prop :=
  ∀ (i : Nat) (s : Nat), ((w.nodes[i]?).bind (·.state)) = some s →
    ((w'.nodes[i]?).bind (·.state)) = some s

theorem Keeps.trans {a b c : World} (h : Keeps a b) (h' : Keeps b c) : Keeps a c :=
  fun i s hs => h' i s (h i s hs)

theorem assign_keeps (w : World) (f i : Nat) (h : ((w.nodes[i]?).bind (·.state)) = none) :
    Keeps w (w.assign f i) := by
  intro j s hs
  rw [assign_nodes]
  split
  · next e => subst e; rw [h] at hs; simp at hs
  · exact hs

theorem state_keeps (w : World) (l : Lat) (x y : Int) : Keeps w (w.state l x y).1 := by
  unfold World.state
  simp only []
  split
  · exact fun _ _ h => h
  · next h => exact assign_keeps w _ _ h

/-! ### Making a lattice -/

theorem gridNodes_length (w h f : Nat) : (gridNodes w h f).length = w * h := by
  unfold gridNodes
  induction h with
  | zero => simp
  | succ h ih =>
    rw [List.range_succ, List.flatMap_append, List.length_append, ih]
    simp [Nat.mul_succ]

theorem gridNodes_mem (w h f : Nat) (n : Node) (hn : n ∈ gridNodes w h f) :
    n.fst = f ∧ n.state = none := by
  unfold gridNodes at hn
  simp only [List.mem_flatMap, List.mem_map] at hn
  obtain ⟨y, _, x, _, rfl⟩ := hn
  exact ⟨rfl, rfl⟩

theorem gridNodes_get (w h f x y : Nat) (hx : x < w) (hy : y < h) :
    (gridNodes w h f)[y * w + x]? = some ⟨x, y, f, none⟩ := by
  induction h with
  | zero => omega
  | succ h ih =>
    have e : gridNodes w (h + 1) f = gridNodes w h f ++
        (List.range w).map (fun (x : Nat) => (⟨x, h, f, none⟩ : Node)) := by
      simp [gridNodes, List.range_succ, List.flatMap_append]
    rw [e]
    by_cases hyh : y < h
    · rw [List.getElem?_append_left (by
        rw [gridNodes_length]
        have := Nat.mul_le_mul_right w (show y + 1 ≤ h by omega)
        rw [Nat.add_mul, Nat.one_mul, Nat.mul_comm h w] at this
        omega)]
      exact ih hyh
    · have : y = h := by omega
      subst this
      rw [List.getElem?_append_right (by rw [gridNodes_length, Nat.mul_comm]; omega),
        gridNodes_length, Nat.mul_comm w y, Nat.add_sub_cancel_left, List.getElem?_map,
        List.getElem?_range hx]
      rfl

theorem append_ok (w : World) (ns : List Node) (h : WorldOk w)
    (hn : ∀ n ∈ ns, n.state = none ∧ n.fst < w.fsts.length) :
    WorldOk { w with nodes := w.nodes ++ ns } := by
  have old : ∀ (i : Nat) (n : Node) (s : Nat), (w.nodes ++ ns)[i]? = some n → n.state = some s →
      w.nodes[i]? = some n := by
    intro i n s hi hs
    by_cases hlt : i < w.nodes.length
    · rwa [List.getElem?_append_left hlt] at hi
    · rw [List.getElem?_append_right (by omega)] at hi
      have := (hn n (List.mem_of_getElem? hi)).1
      rw [hs] at this; simp at this
  refine ⟨?_, ?_, ?_⟩
  · intro i n hi
    simp only [] at hi ⊢
    by_cases hlt : i < w.nodes.length
    · rw [List.getElem?_append_left hlt] at hi; exact h.range i n hi
    · rw [List.getElem?_append_right (by omega)] at hi
      exact (hn n (List.mem_of_getElem? hi)).2
  · intro i n s hi hs
    exact h.bound i n s (old i n s hi hs) hs
  · intro i j n m s hi hj hf hs ht
    exact h.inj i j n m s (old i n s hi hs) (old j m s hj ht) hf hs ht

theorem setFst_ok (w : World) (e f : Nat) (n : Node) (h : WorldOk w) (hf : f < w.fsts.length)
    (he : w.nodes[e]? = some n) (hs : n.state = none) :
    WorldOk { w with nodes := w.nodes.modify e (fun n => { n with fst := f }) } := by
  have get : ∀ (i : Nat) (m : Node), (w.nodes.modify e (fun n => { n with fst := f }))[i]? = some m →
      (i = e ∧ m = { n with fst := f }) ∨ (i ≠ e ∧ w.nodes[i]? = some m) := by
    intro i m hi
    rw [List.getElem?_modify] at hi
    by_cases hie : i = e
    · subst hie
      rw [he] at hi
      simp only [if_true, Option.map_eq_map, Option.map_some, Option.some.injEq] at hi
      exact Or.inl ⟨rfl, hi.symm⟩
    · simp only [if_neg (Ne.symm hie)] at hi
      exact Or.inr ⟨hie, by simpa using hi⟩
  refine ⟨?_, ?_, ?_⟩
  · intro i m hi
    rcases get i m hi with ⟨_, rfl⟩ | ⟨_, h'⟩
    · exact hf
    · exact h.range i m h'
  · intro i m s hi hst
    rcases get i m hi with ⟨_, rfl⟩ | ⟨_, h'⟩
    · simp [hs] at hst
    · exact h.bound i m s h' hst
  · intro i j a b s hi hj hfst hsa hsb
    rcases get i a hi with ⟨_, rfl⟩ | ⟨_, h1⟩
    · simp [hs] at hsa
    · rcases get j b hj with ⟨_, rfl⟩ | ⟨_, h2⟩
      · simp [hs] at hsb
      · exact h.inj i j a b s h1 h2 hfst hsa hsb

/-- What holds after filling in states of the nodes of one lattice only. -/
structure Filled (f : Nat) (own : Nat → Prop) (w w' : World) : Prop where
  len : w'.fsts.length = w.fsts.length
  other : ∀ (g : Nat), g ≠ f → w'.fsts[g]? = w.fsts[g]?
  nodes : ∀ (i : Nat), ¬ own i → w'.nodes[i]? = w.nodes[i]?
  fst : ∀ (i : Nat), (w'.nodes[i]?).map Node.fst = (w.nodes[i]?).map Node.fst
  xy : ∀ (i : Nat), (w'.nodes[i]?).map (fun n => (n.x, n.y)) = (w.nodes[i]?).map (fun n => (n.x, n.y))

theorem Filled.refl (f : Nat) (own : Nat → Prop) (w : World) : Filled f own w w :=
  ⟨rfl, fun _ _ => rfl, fun _ _ => rfl, fun _ => rfl, fun _ => rfl⟩

theorem Filled.trans {f : Nat} {own : Nat → Prop} {a b c : World} (h : Filled f own a b)
    (h' : Filled f own b c) : Filled f own a c :=
  ⟨h'.len.trans h.len, fun g hg => (h'.other g hg).trans (h.other g hg),
    fun i hi => (h'.nodes i hi).trans (h.nodes i hi), fun i => (h'.fst i).trans (h.fst i),
    fun i => (h'.xy i).trans (h.xy i)⟩

theorem assign_filled (w : World) (f i : Nat) (own : Nat → Prop) (h : own i) :
    Filled f own w (w.assign f i) := by
  refine ⟨by simp [World.assign], ?_, ?_, ?_, ?_⟩
  · intro g hg
    rw [assign_fsts, if_neg (Ne.symm hg)]
  · intro j hj
    rw [assign_nodes, if_neg]
    rintro rfl; exact hj h
  · intro j
    rw [assign_nodes]
    split
    · cases w.nodes[j]? <;> rfl
    · rfl
  · intro j
    rw [assign_nodes]
    split
    · cases w.nodes[j]? <;> rfl
    · rfl

theorem populate_spec (f : Nat) (own : Nat → Prop) (ns : List Nat) (w : World) (h : WorldOk w)
    (hn : ∀ i ∈ ns, own i ∧ ∃ n, w.nodes[i]? = some n ∧ n.fst = f) :
    WorldOk (w.populate f ns) ∧ Filled f own w (w.populate f ns) := by
  induction ns generalizing w with
  | nil => exact ⟨h, Filled.refl _ _ _⟩
  | cons i ns ih =>
    obtain ⟨ho, n, hi, hf⟩ := hn i (by simp)
    have h1 := assign_ok w f i n h hi hf
    have h2 := assign_filled w f i own ho
    obtain ⟨r1, r2⟩ := ih (w.assign f i) h1 (by
      intro j hj
      obtain ⟨ho', m, hm, hm'⟩ := hn j (by simp [hj])
      refine ⟨ho', ?_⟩
      have := h2.fst j
      rw [hm] at this
      cases hx : (w.assign f i).nodes[j]? with
      | none => rw [hx] at this; simp at this
      | some x =>
        rw [hx] at this
        simp at this
        exact ⟨x, rfl, this.trans hm'⟩)
    exact ⟨r1, h2.trans r2⟩

/-- A new error node and a new lattice with an FST of the caller: what
`Lattice(alias, width, height, fst, Node('error'), populate)` does. -/
def buildLat (w : World) (width height f : Nat) (populate : Bool) : World × Lat :=
  let r := w.newNode
  r.1.newLattice width height f r.2 populate

theorem build_spec (w : World) (width height f : Nat) (pop : Bool) (h : WorldOk w)
    (hf : f < w.fsts.length) (h0 : 0 < w.fsts.length) :
    WorldOk (buildLat w width height f pop).1 ∧
    LatOk (buildLat w width height f pop).1 (buildLat w width height f pop).2 ∧
    (buildLat w width height f pop).2.fst = f ∧
    (buildLat w width height f pop).1.fsts.length = w.fsts.length ∧
    (∀ g, g ≠ f → (buildLat w width height f pop).1.fsts[g]? = w.fsts[g]?) ∧
    (∀ i, i < w.nodes.length → (buildLat w width height f pop).1.nodes[i]? = w.nodes[i]?) := by
  have hb1 : WorldOk w.newNode.1 := append_ok w _ h (by
    intro n hn; simp only [List.mem_singleton] at hn; subst hn; exact ⟨rfl, h0⟩)
  -- the world with the grid
  have hb2 : WorldOk { w.newNode.1 with nodes := w.newNode.1.nodes ++ gridNodes width height f } :=
    append_ok _ _ hb1 (by
      intro n hn
      obtain ⟨e1, e2⟩ := gridNodes_mem _ _ _ _ hn
      exact ⟨e2, by rw [e1]; exact hf⟩)
  have herr : (w.newNode.1.nodes ++ gridNodes width height f)[w.nodes.length]? =
      some { x := -1, y := -1, fst := nodeDefaultFst, state := none } := by
    simp [World.newNode]
  have hb3 := setFst_ok _ w.nodes.length f _ hb2 (by exact hf) herr rfl
  let w3 : World :=
    ⟨w.fsts, List.modify (w.newNode.1.nodes ++ gridNodes width height f) w.nodes.length
      (fun n => { n with fst := f })⟩
  let l : Lat := ⟨f, width, height, w.nodes.length + 1, w.nodes.length⟩
  have hw3 : WorldOk w3 := hb3
  have hgrid : ∀ i, Lat.owns l i → ∃ n, w3.nodes[i]? = some n ∧ n.fst = f ∧
      n.state = none := by
    intro i hi
    simp only [Lat.owns, l] at hi
    simp only [w3, List.getElem?_modify]
    by_cases he : i = w.nodes.length
    · subst he
      rw [herr]
      simp
    · have hi' : w.nodes.length + 1 ≤ i ∧ i < w.nodes.length + 1 + width * height := by omega
      simp only [if_neg (Ne.symm he)]
      have e : (w.newNode.1.nodes ++ gridNodes width height f)[i]? =
          (gridNodes width height f)[i - (w.nodes.length + 1)]? := by
        rw [List.getElem?_append_right (by simp [World.newNode]; omega)]
        simp [World.newNode]
      rw [e]
      have hlt : i - (w.nodes.length + 1) < (gridNodes width height f).length := by
        rw [gridNodes_length]; omega
      rw [List.getElem?_eq_getElem hlt]
      obtain ⟨e1, e2⟩ := gridNodes_mem _ _ _ _ (List.getElem_mem hlt)
      exact ⟨_, rfl, e1, e2⟩
  have hxy : ∀ x y : Nat, x < width → y < height →
      w3.nodes[l.base + y * l.width + x]? = some ⟨x, y, f, none⟩ := by
    intro x y hx hy
    simp only [w3, l, List.getElem?_modify]
    have hne : ¬ w.nodes.length = w.nodes.length + 1 + y * width + x := by omega
    simp only [if_neg hne]
    have e : (w.newNode.1.nodes ++ gridNodes width height f)[w.nodes.length + 1 + y * width + x]? =
        (gridNodes width height f)[y * width + x]? := by
      rw [List.getElem?_append_right (by simp [World.newNode]; omega)]
      congr 1
      simp [World.newNode]; omega
    rw [e, gridNodes_get _ _ _ _ _ hx hy]
    rfl
  have hold : ∀ i, i < w.nodes.length → w3.nodes[i]? = w.nodes[i]? := by
    intro i hi
    simp only [w3, List.getElem?_modify]
    have hne : ¬ w.nodes.length = i := by omega
    simp only [if_neg hne]
    rw [List.getElem?_append_left (by simp [World.newNode]; omega)]
    simp only [World.newNode, Option.map_eq_map]
    rw [List.getElem?_append_left hi]
    simp
  obtain ⟨ne, hne, hnef, hnes⟩ := hgrid w.nodes.length (Or.inr rfl)
  have h4 := assign_ok w3 f w.nodes.length ne hw3 hne hnef
  have hf4 := assign_filled w3 f w.nodes.length (Lat.owns l) (Or.inr rfl)
  have hgrid4 : ∀ i, Lat.owns l i → ∃ n, (w3.assign f w.nodes.length).nodes[i]? = some n ∧
      n.fst = f := by
    intro i hi
    obtain ⟨n, hn, e, _⟩ := hgrid i hi
    have := hf4.fst i
    rw [hn] at this
    cases hx : (w3.assign f w.nodes.length).nodes[i]? with
    | none => rw [hx] at this; simp at this
    | some x => rw [hx] at this; simp at this; exact ⟨x, rfl, this.trans e⟩
  have h5 := populate_spec f (Lat.owns l) (List.range' (w.nodes.length + 1) (width * height))
    (w3.assign f w.nodes.length) h4 (by
      intro i hi
      rw [List.mem_range'] at hi
      obtain ⟨k, hk, rfl⟩ := hi
      have ho : Lat.owns l (w.nodes.length + 1 + 1 * k) := Or.inl ⟨by simp [l], by simp [l]; omega⟩
      exact ⟨ho, hgrid4 _ ho⟩)
  have heq : buildLat w width height f pop =
      ((if pop then (w3.assign f w.nodes.length).populate f
          (List.range' (w.nodes.length + 1) (width * height)) else w3.assign f w.nodes.length), l) := by
    have hsome : ((w3.nodes[w.nodes.length]?).bind (·.state)).isSome = false := by
      rw [hne]; simp [hnes]
    have : buildLat w width height f pop =
      ((if pop then (if ((w3.nodes[w.nodes.length]?).bind (·.state)).isSome then w3 else
          w3.assign f w.nodes.length).populate f
          (List.range' (w.newNode.1.nodes.length) (width * height)) else
          (if ((w3.nodes[w.nodes.length]?).bind (·.state)).isSome then w3 else
          w3.assign f w.nodes.length)),
        { fst := f, width := width, height := height, base := w.newNode.1.nodes.length,
          error := w.nodes.length }) := rfl
    rw [this, hsome]
    simp [World.newNode, l]
  rw [heq]
  have finish : ∀ w5 : World, WorldOk w5 → Filled f (Lat.owns l) w3 w5 →
      WorldOk w5 ∧ LatOk w5 l ∧ l.fst = f ∧ w5.fsts.length = w.fsts.length ∧
      (∀ g, g ≠ f → w5.fsts[g]? = w.fsts[g]?) ∧
      (∀ i, i < w.nodes.length → w5.nodes[i]? = w.nodes[i]?) := by
    intro w5 hok hfill
    refine ⟨hok, ⟨?_, ?_, ?_, ?_⟩, rfl, hfill.len, hfill.other, ?_⟩
    · rw [hfill.len]; exact hf
    · intro i hi
      obtain ⟨n, hn, e, _⟩ := hgrid i hi
      have := hfill.fst i
      rw [hn] at this
      cases hx : w5.nodes[i]? with
      | none => rw [hx] at this; simp at this
      | some x => rw [hx] at this; simp at this; exact ⟨x, rfl, this.trans e⟩
    · left; simp [l]
    · intro x y hx hy
      have hg := hxy x y hx hy
      have := hfill.xy (l.base + y * l.width + x)
      rw [hg] at this
      cases hn : w5.nodes[l.base + y * l.width + x]? with
      | none => rw [hn] at this; simp at this
      | some n => rw [hn] at this; simp at this; exact ⟨n, rfl, this⟩
    · intro i hi
      rw [hfill.nodes i (by simp only [Lat.owns, l]; omega), hold i hi]
  cases pop with
  | true => exact finish _ h5.1 (hf4.trans h5.2)
  | false => exact finish _ h4 hf4

/-! ### Programs -/

/-- A program that uses lattices: it makes FSTs, makes lattices on an FST of its own choice with an
error node of their own, and asks for states. -/
inductive LOp
  | newFst
  | build (width height fst : Nat) (populate : Bool)
  | state (lattice : Nat) (x y : Int)
  deriving Repr

def lstep (p : World × List Lat) : LOp → World × List Lat
  | .newFst => (p.1.newFst.1, p.2)
  | .build wd ht f pop =>
    if f < p.1.fsts.length then
      let r := buildLat p.1 wd ht f pop
      (r.1, p.2 ++ [r.2])
    else p
  | .state i x y =>
    match p.2[i]? with
    | none => p
    | some l => ((p.1.state l x y).1, p.2)

def lrun (p : World × List Lat) (os : List LOp) : World × List Lat := os.foldl lstep p

structure ProgOk (p : World × List Lat) : Prop where
  world : WorldOk p.1
  pos : 0 < p.1.fsts.length
  lats : ∀ l ∈ p.2, LatOk p.1 l

theorem newFst_ok (w : World) (h : WorldOk w) : WorldOk w.newFst.1 := by
  refine ⟨?_, ?_, h.inj⟩
  · intro i n hn
    have := h.range i n hn
    simp [World.newFst]; omega
  · intro i n s hn hs
    obtain ⟨k, hk, hlt⟩ := h.bound i n s hn hs
    refine ⟨k, ?_, hlt⟩
    simp only [World.newFst]
    rw [List.getElem?_append_left (h.range i n hn)]
    exact hk

theorem LatOk.mono {w w' : World} {l : Lat} (h : LatOk w l) (hl : w.fsts.length ≤ w'.fsts.length)
    (hn : ∀ i, i < w.nodes.length → w'.nodes[i]? = w.nodes[i]?) : LatOk w' l := by
  refine ⟨Nat.lt_of_lt_of_le h.fst hl, ?_, h.error, ?_⟩
  · intro i hi
    obtain ⟨n, hn', e⟩ := h.nodes i hi
    exact ⟨n, by rw [hn i (List.getElem?_eq_some_iff.1 hn').1]; exact hn', e⟩
  · intro x y hx hy
    obtain ⟨n, hn', e⟩ := h.coords x y hx hy
    exact ⟨n, by rw [hn _ (List.getElem?_eq_some_iff.1 hn').1]; exact hn', e⟩

theorem lstep_ok (p : World × List Lat) (o : LOp) (h : ProgOk p) :
    ProgOk (lstep p o) ∧ Keeps p.1 (lstep p o).1 ∧ p.2 <+: (lstep p o).2 := by
  cases o with
  | newFst =>
    refine ⟨⟨newFst_ok _ h.world, by simp [lstep, World.newFst], ?_⟩, fun _ _ h => h,
      List.prefix_rfl⟩
    intro l hl
    exact (h.lats l hl).mono (by simp [lstep, World.newFst]) (fun _ _ => rfl)
  | build wd ht f pop =>
    simp only [lstep]
    split
    · next hf =>
      obtain ⟨b1, b2, b3, b4, b5, b6⟩ := build_spec p.1 wd ht f pop h.world hf h.pos
      refine ⟨⟨b1, by simp only []; rw [b4]; exact h.pos, ?_⟩, ?_, List.prefix_append _ _⟩
      · intro l hl
        simp only [List.mem_append, List.mem_singleton] at hl
        rcases hl with hl | rfl
        · exact (h.lats l hl).mono (by simp only []; omega) b6
        · exact b2
      · intro i s hs
        have hlt : i < p.1.nodes.length := by
          cases hx : p.1.nodes[i]? with
          | none => rw [hx] at hs; simp at hs
          | some x => exact (List.getElem?_eq_some_iff.1 hx).1
        simp only []
        rw [b6 i hlt]; exact hs
    · exact ⟨h, fun _ _ h => h, List.prefix_rfl⟩
  | state i x y =>
    simp only [lstep]
    split
    · exact ⟨h, fun _ _ h => h, List.prefix_rfl⟩
    · next l hl =>
      have hl' := h.lats l (List.mem_of_getElem? hl)
      obtain ⟨s1, s2⟩ := state_nodes p.1 l x y h.world hl'
      refine ⟨⟨s1, ?_, fun l' hl'' => s2 l' (h.lats l' hl'')⟩, state_keeps _ _ _ _,
        List.prefix_rfl⟩
      simp only [World.state]
      split
      · exact h.pos
      · simpa [World.assign] using h.pos

theorem lrun_ok (p : World × List Lat) (os : List LOp) (h : ProgOk p) :
    ProgOk (lrun p os) ∧ Keeps p.1 (lrun p os).1 ∧ p.2 <+: (lrun p os).2 := by
  induction os generalizing p with
  | nil => exact ⟨h, fun _ _ h => h, List.prefix_rfl⟩
  | cons o os ih =>
    obtain ⟨a1, a2, a3⟩ := lstep_ok p o h
    obtain ⟨b1, b2, b3⟩ := ih (lstep p o) a1
    exact ⟨b1, a2.trans b2, a3.trans b3⟩

theorem initial_ok : ProgOk (World.initial, []) := by
  refine ⟨⟨?_, ?_, ?_⟩, by decide, by simp⟩
  · intro i n h
    have : i = 0 := by
      have := (List.getElem?_eq_some_iff.1 h).1
      simp [World.initial] at this; exact this
    subst this
    simp [World.initial] at h; subst h; decide
  · intro i n s h hs
    have : i = 0 := by
      have := (List.getElem?_eq_some_iff.1 h).1
      simp [World.initial] at this; exact this
    subst this
    simp [World.initial] at h; subst h; simp at hs
  · intro i j n m s hi hj _ _ _
    have := (List.getElem?_eq_some_iff.1 hi).1
    have := (List.getElem?_eq_some_iff.1 hj).1
    simp [World.initial] at *
    omega

/-! ## C47 -/

/-- Reached by some program. -/
def ReachableLat (p : World × List Lat) : Prop := ∃ os, p = lrun (World.initial, []) os

theorem ReachableLat.ok {p : World × List Lat} (h : ReachableLat p) : ProgOk p := by
  obtain ⟨os, rfl⟩ := h
  exact (lrun_ok _ os initial_ok).1

/-- **C47** (nodes).  In a program that gives every lattice its own error node, `node(x, y)` is a node
of the lattice's FST; inside the lattice it carries the coordinates asked for. -/
theorem C47_node_partial (p : World × List Lat) (h : ReachableLat p) (l : Lat) (hl : l ∈ p.2)
    (x y : Int) :
    ∃ n, p.1.nodes[l.node x y]? = some n ∧ n.fst = l.fst ∧
      (0 ≤ x ∧ x < l.width ∧ 0 ≤ y ∧ y < l.height → n.x = x ∧ n.y = y) := by
  have hlo := h.ok.lats l hl
  obtain ⟨n, hn, e⟩ := hlo.nodes _ (node_owned l x y)
  refine ⟨n, hn, e, fun hr => ?_⟩
  obtain ⟨m, hm, e1, e2⟩ := hlo.coords x.toNat y.toNat (by omega) (by omega)
  unfold Lat.node at hn
  rw [if_pos hr, hm] at hn
  obtain rfl := Option.some.inj hn
  omega

/-- **C47** (coordinates and states).  In a program that gives every lattice its own error node:
`state(x, y)` returns a state of the lattice's FST; asking again later, after any other calls,
returns the same state; and different coordinates inside the lattice have different states, as have
coordinates inside and outside. -/
theorem C47_states_partial (p : World × List Lat) (h : ReachableLat p) (l : Lat) (hl : l ∈ p.2)
    (x y : Int) :
    (∃ k, (p.1.state l x y).1.fsts[l.fst]? = some k ∧ (p.1.state l x y).2 < k) ∧
    (∀ i, p.2[i]? = some l → ∀ os : List LOp,
      ((lrun (lstep p (.state i x y)) os).1.state l x y).2 = (p.1.state l x y).2) ∧
    (∀ x' y', 0 ≤ x ∧ x < l.width ∧ 0 ≤ y ∧ y < l.height → (x, y) ≠ (x', y') →
      ((p.1.state l x y).1.state l x' y').2 ≠ (p.1.state l x y).2) := by
  have ho := h.ok
  have hlo := ho.lats l hl
  obtain ⟨s1, s2⟩ := state_nodes p.1 l x y ho.world hlo
  have hres := state_result p.1 l x y hlo
  refine ⟨?_, ?_, ?_⟩
  · obtain ⟨n, hn, e⟩ := (s2 l hlo).nodes _ (node_owned l x y)
    rw [hn] at hres
    simp only [Option.bind_some] at hres
    obtain ⟨k, hk, hlt⟩ := s1.bound _ n _ hn hres
    exact ⟨k, by rw [← e]; exact hk, hlt⟩
  · intro i hi os
    have hstep : (lstep p (.state i x y)).1 = (p.1.state l x y).1 := by simp [lstep, hi]
    obtain ⟨_, k2, _⟩ := lrun_ok _ os (lstep_ok p (.state i x y) ho).1
    rw [hstep] at k2
    have := k2 _ _ hres
    unfold World.state
    simp only []
    rw [this]
    rfl
  · intro x' y' hr hne he
    have hlo' := s2 l hlo
    have hres' := state_result _ l x' y' hlo'
    obtain ⟨t1, t2⟩ := state_nodes _ l x' y' s1 hlo'
    have hk := state_keeps (p.1.state l x y).1 l x' y' _ _ hres
    obtain ⟨n, hn, e⟩ := (t2 l hlo').nodes _ (node_owned l x y)
    obtain ⟨m, hm, e'⟩ := (t2 l hlo').nodes _ (node_owned l x' y')
    rw [hn] at hk
    rw [hm] at hres'
    simp only [Option.bind_some] at hk hres'
    rw [he] at hres'
    have hij := t1.inj _ _ n m _ hn hm (e.trans e'.symm) hk hres'
    have := node_inj l p.1 hlo x y x' y' hr hij
    exact hne (by rw [this.1, this.2])

/-- Everything that can be observed of a lattice: the number of states of its FST and the states of
its nodes. -/
def latView (w : World) (l : Lat) : Option Nat × (Int → Int → Option Node) :=
  (w.fsts[l.fst]?, fun x y => w.nodes[l.node x y]?)

/-- **C47** (independence).  In such a program, neither asking a lattice for states nor building a
new lattice changes anything of a lattice on another FST. -/
theorem C47_independent_partial (p : World × List Lat) (h : ReachableLat p) (l : Lat) (hl : l ∈ p.2)
    (o : LOp)
    (ho : match o with
      | .newFst => True
      | .build _ _ f _ => f ≠ l.fst
      | .state i _ _ => ∀ l', p.2[i]? = some l' → l'.fst ≠ l.fst) :
    latView (lstep p o).1 l = latView p.1 l := by
  have hok := h.ok
  have hlo := hok.lats l hl
  cases o with
  | newFst =>
    simp only [latView, lstep, World.newFst]
    rw [List.getElem?_append_left hlo.fst]
  | build wd ht f pop =>
    simp only [lstep]
    split
    · next hf =>
      obtain ⟨b1, b2, b3, b4, b5, b6⟩ := build_spec p.1 wd ht f pop hok.world hf hok.pos
      unfold latView
      simp only []
      rw [b5 l.fst (Ne.symm ho)]
      congr 1
      funext x y
      obtain ⟨n, hn, _⟩ := hlo.nodes _ (node_owned l x y)
      exact b6 _ (List.getElem?_eq_some_iff.1 hn).1
    · rfl
  | state i x y =>
    simp only [lstep]
    split
    · rfl
    · next l' hl' =>
      have hne := ho l' hl'
      have hlo' := hok.lats l' (List.mem_of_getElem? hl')
      simp only [World.state]
      split
      · rfl
      · simp only [latView]
        rw [assign_fsts, if_neg hne]
        congr 1
        funext x' y'
        rw [assign_nodes, if_neg]
        intro e
        obtain ⟨n, hn, hf⟩ := hlo.nodes _ (node_owned l x' y')
        obtain ⟨m, hm, hg⟩ := hlo'.nodes _ (node_owned l' x y)
        rw [e, hn] at hm
        obtain rfl := Option.some.inj hm
        exact hne (hg.symm.trans hf)

/-- A program with two lattices on different FSTs. -/
example : ∃ p l l', ReachableLat p ∧ l ∈ p.2 ∧ l' ∈ p.2 ∧ l.fst ≠ l'.fst ∧
    (p.1.state l 1 1).2 = 4 ∧ (p.1.state l' 0 0).2 = 1 :=
  ⟨lrun (World.initial, []) [.newFst, .newFst, .build 2 2 2 true, .build 3 1 3 false],
   _, _, ⟨_, rfl⟩, List.mem_cons_self, List.mem_cons_of_mem _ List.mem_cons_self,
   by decide, by decide, by decide⟩

theorem populate_count (ns : List Nat) (w : World) (k f : Nat) (h : w.fsts[f]? = some k) :
    (w.populate f ns).fsts[f]? = some (k + ns.length) := by
  induction ns generalizing w k with
  | nil => simpa [World.populate] using h
  | cons n ns ih =>
    simp only [World.populate]
    rw [ih _ (k + 1) (by rw [assign_fsts, if_pos rfl, h]; rfl)]
    simp; omega

theorem newLattice_populate (w : World) (width height f e : Nat) :
    (w.newLattice width height f e true).1 =
      (w.newLattice width height f e false).1.populate f
        (List.range' w.nodes.length (width * height)) := rfl

theorem newLattice_error (w : World) (width height e : Nat) (n : Node) (s : Nat)
    (hn : w.nodes[e]? = some n) (hs : n.state = some s) {f : Nat} :
    (w.newLattice width height f e false).1.fsts[f]? = w.fsts[f]? := by
  have hlt := (List.getElem?_eq_some_iff.1 hn).1
  have : (((w.nodes ++ gridNodes width height f).modify e
      (fun n => { n with fst := f }))[e]?.bind (·.state)).isSome = true := by
    rw [List.getElem?_modify, List.getElem?_append_left hlt, hn]
    simp [hs]
  simp only [World.newLattice, this, if_true, Bool.false_eq_true, if_false]

/-- **C47** (disagreement).  Lattices built with the default arguments share one FST: building the
second adds states to the FST of the first. -/
theorem C47_default_fst_shared (width height : Nat) (hw : 0 < width * height) :
    let r1 := World.initial.newLattice 1 1
    let r2 := r1.1.newLattice width height (populate := true)
    r1.2.fst = r2.2.fst ∧ r1.1.fsts[r1.2.fst]? = some 1 ∧
    ∃ k, r2.1.fsts[r1.2.fst]? = some k ∧ 1 < k := by
  have h1 : World.initial.newLattice 1 1 =
      (⟨[0, 1], [⟨-1, -1, 1, some 0⟩, ⟨0, 0, 1, none⟩]⟩, ⟨1, 1, 1, 1, 0⟩) := by decide
  refine ⟨rfl, rfl, 1 + width * height, ?_, by omega⟩
  rw [h1]
  show ((World.newLattice _ width height latticeDefaultFst defaultError true).1).fsts[latticeDefaultFst]?
    = _
  rw [newLattice_populate, populate_count _ _ 1]
  · simp
  · exact newLattice_error _ width height 0 ⟨-1, -1, 1, some 0⟩ 0 rfl rfl

/-- **C47** (disagreement).  Lattices that are given different FSTs but no error node share the
default error node: the second lattice's error state is a state number of the first one's FST, and
need not exist in its own FST. -/
theorem C47_default_error_shared :
    let w0 := World.initial.newFst.1.newFst.1
    let r1 := w0.newLattice 1 1 2
    let r2 := r1.1.newLattice 1 1 3
    r1.2.fst = 2 ∧ r2.2.fst = 3 ∧
    ((r2.1.state r2.2 5 5).1.fsts[r2.2.fst]? = some 0) ∧ (r2.1.state r2.2 5 5).2 = 0 ∧
    -- and the error node of the first lattice now claims to belong to the second FST
    (r2.1.nodes[r1.2.error]?).map (·.fst) = some 3 := by
  decide

end Nisaba.Props
