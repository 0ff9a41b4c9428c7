import Verif.Spec.SerialData
import Verif.Props.StorageData
import Verif.Props.TestCases
/-
C112: Serialbox data converted to NetCDF reaches a test as it was written.
-/
namespace NDSL.Serial
open NDSL.Storage (Nd isIndex fromOpt fits mapM_ok)

variable {V : Type} [DecidableEq V]

theorem foldl_elements (l : List Nat) (a : Nat) : l.foldl (· * ·) a = a * elements l := by
  induction l generalizing a with
  | nil => simp [elements]
  | cons x l ih => rw [List.foldl_cons, ih, elements, Nat.mul_assoc]

/-- A field as it is read. -/
def cleaned (v : Values V) (d : Nd V) : Nd V :=
  if elements d.shape = 1 then ⟨d.shape.tail, fun idx => d.get (0 :: idx)⟩
  else ⟨d.shape, fun idx => if d.get idx = v.fill then v.zero else d.get idx⟩

theorem cleaned_shape (v : Values V) (d : Nd V) : (cleaned v d).shape = axes d.shape := by
  unfold cleaned axes
  split <;> rfl

theorem cleaned_delivers (v : Values V) (d : Nd V) : Delivers v d (cleaned v d) := by
  refine ⟨cleaned_shape v d, ?_⟩
  unfold cleaned
  by_cases h : elements d.shape = 1
  · rw [if_pos h, if_pos h]; intro idx _; rfl
  · rw [if_neg h, if_neg h]; intro idx _; rfl

theorem read_eq (v : Values V) (x : String) (p : Point V) (d : Nd V) (h : dictGet p.fields x = some d) (hs : d.shape ≠ []) :
    read v x p = .ok (cleaned v d) := by
  unfold read cleaned
  rw [h]
  simp only
  rw [foldl_elements, Nat.one_mul]
  by_cases he : elements d.shape = 1
  · rw [if_pos he, if_pos he]
    cases hd : d.shape with
    | nil => exact absurd hd hs
    | cons n ns => rfl
  · rw [if_neg he, if_neg he]

/-- The array of a savepoint, all NaN if it lacks the field. -/
def deliver (v : Values V) (sh : List Nat) (x : String) (p : Point V) : Nd V :=
  match dictGet p.fields x with
  | some d => cleaned v d
  | none => ⟨axes sh, fun _ => v.nan⟩

/-- What `Regular` says of one rank and field. -/
def RankOk (sh : List Nat) (x : String) (needs : Bool) (pts : List (Point V)) : Prop :=
  pts ≠ [] ∧ ((∀ p ∈ pts, ∃ d, dictGet p.fields x = some d ∧ d.shape = sh) ∨
    (needs = false ∧ pts.length = 1 ∧ axes sh ≠ [] ∧ ∀ p ∈ pts, dictGet p.fields x = none))

theorem deliver_shape (v : Values V) (sh : List Nat) (x : String) (b : Bool) (pts : List (Point V)) (h : RankOk sh x b pts) (p : Point V)
    (hp : p ∈ pts) : (deliver v sh x p).shape = axes sh := by
  unfold deliver
  rcases h.2 with h | ⟨_, _, _, h⟩
  · obtain ⟨d, hd, hs⟩ := h p hp
    rw [hd, ← hs]; exact cleaned_shape v d
  · rw [h p hp]

theorem rankVar_eq (v : Values V) (c : Conf) (hm : c.merge = false) (sh : List Nat) (hsh : sh ≠ []) (x : String) (prev : Option (Nd V))
    (pts : List (Point V)) (h : RankOk sh x prev.isNone pts) (hp : ∀ d, prev = some d → d.shape = axes sh) :
    rankVar v c x prev pts = .ok (pts.map (deliver v sh x)) := by
  cases pts with
  | nil => exact absurd rfl h.1
  | cons p ps =>
    unfold rankVar
    simp only
    rcases h.2 with h | ⟨hb, hl, ha, h⟩
    · obtain ⟨d0, hd0, -⟩ := h p List.mem_cons_self
      rw [hd0]
      have e : (p :: ps).mapM (read v x) = .ok ((p :: ps).map (deliver v sh x)) := mapM_ok _ _ _ fun q hq => by
        obtain ⟨d, hd, hs⟩ := h q hq
        rw [read_eq v x q d hd (by rw [hs]; exact hsh)]
        unfold deliver
        rw [hd]
      rw [e]
      simp [bind, Except.bind, hm]
    · have e := h p List.mem_cons_self
      rw [e]
      have hps : ps = [] := by simpa using hl
      subst hps
      cases prev with
      | none => cases hb
      | some d =>
        have hds := hp d rfl
        simp only [Option.isNone_none, if_true]
        rw [if_neg (by rw [hds]; exact ha), List.map_cons, List.map_nil]
        unfold deliver
        rw [e, hds]

theorem ranksVar_eq (v : Values V) (c : Conf) (hm : c.merge = false) (sh : List Nat) (hsh : sh ≠ []) (x : String) :
    ∀ (prev : Option (Nd V)) (ss : List (List (Point V))) (_ : ∀ d, prev = some d → d.shape = axes sh)
      (_ : ∀ pts ∈ ss, RankOk sh x false pts) (_ : prev = none → ∀ pts, ss.head? = some pts → RankOk sh x true pts),
      ranksVar v c x prev ss = .ok (ss.map fun pts => pts.map (deliver v sh x))
  | _, [], _, _, _ => rfl
  | prev, pts :: more, hp, h, h0 => by
    unfold ranksVar
    have hk : RankOk sh x prev.isNone pts := by
      cases prev with
      | none => exact h0 rfl pts rfl
      | some d => exact h pts List.mem_cons_self
    rw [rankVar_eq v c hm sh hsh x prev pts hk hp]
    cases pts with
    | nil => exact absurd rfl hk.1
    | cons p ps =>
      have ih := ranksVar_eq v c hm sh hsh x (some (deliver v sh x p)) more
        (fun d hd => by injection hd with hd; subst hd; exact deliver_shape v sh x _ _ hk p List.mem_cons_self)
        (fun q hq => h q (List.mem_cons_of_mem _ hq)) (fun e => by cases e)
      simp only [bind, Except.bind, List.map_cons, List.head?_cons, ih]
      rfl

theorem collapses_eq (sh : List Nat) (l : List (List Nat)) (h : ∀ s ∈ l, s = sh) : collapses sh l = .ok false := by
  induction l with
  | nil => rfl
  | cons s l ih =>
    unfold collapses
    rw [if_neg (by rw [h s List.mem_cons_self]; simp)]
    exact ih fun q hq => h q (List.mem_cons_of_mem _ hq)

/-- An array as it is stored in one of the same shape. -/
def stored (d : Nd V) : Nd V := ⟨d.shape, fun idx => d.get (List.zipWith (fun i s => if s = 1 then 0 else i) idx d.shape)⟩

theorem fits_self (l : List Nat) : fits l l = true := by
  induction l with
  | nil => rfl
  | cons a l ih => simp [fits, ih]

omit [DecidableEq V] in
theorem spread_eq (d : Nd V) : spread d.shape d = .ok (stored d) := by
  unfold spread stored
  simp [fits_self]

theorem zip_index (sh idx : List Nat) (h : isIndex sh idx) : List.zipWith (fun i s => if s = 1 then 0 else i) idx sh = idx := by
  induction sh generalizing idx with
  | nil => cases idx with
    | nil => rfl
    | cons _ _ => cases h
  | cons n ns ih => cases idx with
    | nil => cases h
    | cons i is =>
      rw [List.zipWith_cons_cons, ih is h.2]
      by_cases hn : n = 1
      · have := h.1; rw [if_pos hn]; congr 1; omega
      · rw [if_neg hn]

omit [DecidableEq V] in
theorem stored_get (d : Nd V) (idx : List Nat) (h : isIndex d.shape idx) : (stored d).get idx = d.get idx := by
  unfold stored
  simp only
  rw [zip_index _ _ h]

omit [DecidableEq V] in
theorem range_mapM (sh : List Nat) (ds : List (Nd V)) (h : ∀ d ∈ ds, d.shape = sh) :
    ((List.range ds.length).mapM fun i => do spread sh (← fromOpt .indexError ds[i]?)) = .ok (ds.map stored) := by
  cases hd : ds with
  | nil => rfl
  | cons d0 rest =>
    rw [← hd]
    rw [mapM_ok _ (fun i => stored (ds.getD i d0)) (List.range ds.length) fun i hi => by
      have hi := List.mem_range.mp hi
      simp only [List.getElem?_eq_getElem hi, fromOpt, bind, Except.bind, List.getD_eq_getElem?_getD, Option.getD_some]
      have := h ds[i] (List.getElem_mem hi)
      rw [← this]
      exact spread_eq _]
    congr 1
    apply List.ext_getElem
    · simp
    · intro i h1 h2
      simp only [List.length_map, List.length_range] at h1
      simp [List.getElem?_eq_getElem h1]

/-- A variable all whose arrays have one shape. -/
def plain (sh : List Nat) (data : List (List (Nd V))) : Var V := ⟨data.length, sh, data.map fun ds => ds.map stored⟩

omit [DecidableEq V] in
theorem getData_eq (sh : List Nat) (n : Nat) (data : List (List (Nd V))) (hl : ∀ ds ∈ data, ds.length = n)
    (h : ∀ ds ∈ data, ∀ d ∈ ds, d.shape = sh) : getData sh n data = .ok (plain sh data) := by
  unfold getData
  rw [mapM_ok _ (fun ds => ds.map stored) data fun ds hds => by
    rw [← hl ds hds]; exact range_mapM sh ds (h ds hds)]
  rfl

/-- A variable with three cells less at each end of the first two axes. -/
def cut (x : Var V) : Var V :=
  match x.shape with
  | a :: b :: rest => ⟨x.ranks, (a - 6) :: (b - 6) :: rest, x.cells.map fun ds => ds.map fun d =>
      ⟨(a - 6) :: (b - 6) :: rest, fun idx => match idx with
        | i :: j :: r => d.get ((i + 3) :: (j + 3) :: r)
        | _ => d.get idx⟩⟩
  | _ => x

omit [DecidableEq V] in
theorem cutHalo_eq (x : Var V) (h : 3 ≤ x.shape.length) : cutHalo x = .ok (cut x) := by
  obtain ⟨k, sh, cells⟩ := x
  match sh, h with
  | a :: b :: k :: rest, _ => rfl

/-- A variable of the file of a regular savepoint. -/
def final (name x : String) (sh : List Nat) (data : List (List (Nd V))) : Var V :=
  if special name ∧ tracer x then cut (plain sh data) else plain sh data

theorem exportVar_eq (v : Values V) (name x : String) (sh : List Nat) (n : Nat) (hn : 0 < n) (data : List (List (Nd V))) (hd : data ≠ [])
    (hl : ∀ ds ∈ data, ds.length = n) (h : ∀ ds ∈ data, ∀ d ∈ ds, d.shape = sh) (ht : special name → tracer x → 3 ≤ sh.length) :
    exportVar v name x n data = .ok (final name x sh data) := by
  have hs : ∀ ds ∈ data, shapeOf ds = sh := fun ds hds => by
    cases he : ds with
    | nil => have := hl ds hds; rw [he] at this; simp at this; omega
    | cons d _ => exact h ds hds d (by rw [he]; exact List.mem_cons_self)
  have h0 : shapeOf (data.headD []) = sh := by
    cases he : data with
    | nil => exact absurd he hd
    | cons ds _ => exact hs ds (by rw [he]; exact List.mem_cons_self)
  unfold exportVar
  simp only [h0]
  rw [collapses_eq sh _ fun s hs' => by obtain ⟨ds, h1, h2⟩ := List.mem_map.mp hs'; rw [← h2]; exact hs ds h1]
  rw [getData_eq sh n data hl h]
  unfold final
  cases h1 : special name <;> cases h2 : tracer x <;> simp [bind, Except.bind]
  exact cutHalo_eq _ (ht h1 h2)

theorem final_ranks (name x : String) (sh : List Nat) (data : List (List (Nd V))) : (final name x sh data).ranks = data.length := by
  unfold final plain
  split
  · unfold cut
    split <;> rfl
  · rfl

theorem mem_streams (c : Conf) (st : Nat → List (Point V)) (name : String) (pts : List (Point V))
    (h : pts ∈ (List.range c.ranks).map fun r => calls (st r) name) : ∃ r, r < c.ranks ∧ pts = calls (st r) name := by
  obtain ⟨r, hr, e⟩ := List.mem_map.mp h
  exact ⟨r, List.mem_range.mp hr, e.symm⟩

/-- The arrays of a field by rank and call. -/
def arrays (v : Values V) (c : Conf) (st : Nat → List (Point V)) (name x : String) (sh : List Nat) : List (List (Nd V)) :=
  (List.range c.ranks).map fun r => (calls (st r) name).map (deliver v sh x)

omit [DecidableEq V] in
theorem rankOk (c : Conf) (dir : String → Option (List (Point V))) (name : String) (n : Nat) (st : Nat → List (Point V))
    (names : List String) (shape : String → List Nat) (hR : Regular c dir name n st names shape) (x : String) (hx : x ∈ names) (r : Nat)
    (hr : r < c.ranks) : RankOk (shape x) x false (calls (st r) name) := by
  refine ⟨?_, ?_⟩
  · intro e
    have := hR.count r hr
    rw [e] at this
    have := hR.some_call
    simp at *; omega
  · rcases hR.fields r hr x hx with h | ⟨h1, h2, h3, h4⟩
    · exact .inl h
    · exact .inr ⟨rfl, by rw [hR.count r hr, h1], h3, h4⟩

theorem export_gen (v : Values V) (c : Conf) (dir : String → Option (List (Point V))) (first : List (Point V)) (name : String) (n : Nat)
    (p : Point V) (streams : List (List (Point V))) (names : List String) (hp : (calls first name)[0]? = some p)
    (hn : p.fields.map (·.1) = names)
    (hs : ∀ r, r < c.ranks → ∃ s, getSerializer dir c r = .ok s ∧ streams[r]? = some (calls s name)) (hl : streams.length = c.ranks)
    (hlast : (if c.merge then 1 else (streams.getLastD []).length) = n) (hn0 : 0 < n) (h0 : 0 < c.ranks)
    (data : String → List (List (Nd V))) (sh : String → List Nat)
    (hdata : ∀ x ∈ names, ranksVar v c x none streams = .ok (data x) ∧ (data x).length = c.ranks ∧ (∀ ds ∈ data x, ds.length = n) ∧
      ∀ ds ∈ data x, ∀ d ∈ ds, d.shape = sh x)
    (ht : ∀ x ∈ names, special name → tracer x → 3 ≤ (sh x).length) :
    exportPoint v c dir first name = .ok ((names.filter (· ≠ "rank")).map fun x => (x, final name x (sh x) (data x))) := by
  have hg : ∀ s : List (Point V), getSavepoint s name = calls s name := fun s => by
    unfold getSavepoint calls
    exact List.filter_congr fun p _ => by simp [beq_eq_decide]
  unfold exportPoint
  rw [hg]
  have hp' : (calls first name).head? = some p := by rw [List.head?_eq_getElem?]; exact hp
  simp only [hp', fromOpt, hn]
  have hstr : ((List.range c.ranks).mapM fun r => (do
      let s ← getSerializer dir c r
      return getSavepoint s name : Except Err (List (Point V)))) = .ok streams := by
    rw [mapM_ok _ (fun r => streams.getD r [])]
    · congr 1
      apply List.ext_getElem?
      intro r
      by_cases hr : r < c.ranks
      · obtain ⟨s, -, h2⟩ := hs r hr
        simp [List.getElem?_range hr, h2]
      · simp [List.getElem?_eq_none (l := streams) (i := r) (by omega)]
        omega
    · intro r hr
      obtain ⟨s, h1, h2⟩ := hs r (List.mem_range.mp hr)
      rw [h1]
      simp only [bind, Except.bind, hg]
      simp [List.getD_eq_getElem?_getD, h2, pure, Except.pure]
  simp only [bind, Except.bind] at hstr ⊢
  rw [hstr]
  simp only [hlast]
  rw [hn]
  rw [mapM_ok _ (fun x => (x, final name x (sh x) (data x))) _ fun x hx => by
    have hx := (List.mem_filter.mp hx).1
    obtain ⟨d1, d2, d3, d4⟩ := hdata x hx
    rw [d1]
    simp only
    rw [exportVar_eq v name x (sh x) n hn0 (data x) (fun e => by rw [e] at d2; simp at d2; omega) d3 d4 (ht x hx)]
    rfl]
  simp only
  have hall : ∀ y ∈ (names.filter (· ≠ "rank")).map fun x => (x, final name x (sh x) (data x)), y.2.ranks = c.ranks := by
    intro y hy
    obtain ⟨x, hx, e⟩ := List.mem_map.mp hy
    rw [← e]
    simp only [final_ranks]
    exact (hdata x (List.mem_filter.mp hx).1).2.1
  unfold dataset
  cases he : (names.filter (· ≠ "rank")).map fun x => (x, final name x (sh x) (data x)) with
  | nil => rfl
  | cons y ys =>
    rw [he] at hall
    simp only
    rw [if_pos]
    rw [List.all_eq_true]
    intro z hz
    rw [beq_iff_eq, hall z (List.mem_cons_of_mem _ hz), hall y List.mem_cons_self]

/-- `out` is the array `mid`, without three cells at each side for a tracer of the dynamics. -/
theorem load_gen (c : Conf) (name : String) (names : List String) (data : String → List (List (Nd V))) (sh : String → List Nat)
    (hsh : ∀ x ∈ names, ∀ ds ∈ data x, ∀ d ∈ ds, d.shape = sh x) (ht : ∀ x ∈ names, special name → tracer x → 3 ≤ (sh x).length)
    (hv : ∃ x ∈ names, x ≠ "rank") (files : List (String × List (String × Var V)))
    (hf : dictGet files name = some ((names.filter (· ≠ "rank")).map fun x => (x, final name x (sh x) (data x)))) (r i : Nat)
    (mid : String → Nd V) (hmid : ∀ x ∈ names, ∃ ds, (data x)[r]? = some ds ∧ ds[i]? = some (mid x)) :
    ∃ out, load files name r i = .ok out ∧ out.map (·.1) = names.filter (· ≠ "rank") ∧
      ∀ x ∈ names, x ≠ "rank" → ∃ o, dictGet out x = some o ∧ Trimmed name x (mid x) o := by
  have hex : ∀ x ∈ names, ∃ out, (∃ ds, (final name x (sh x) (data x)).cells[r]? = some ds ∧ ds[i]? = some out) ∧
      Trimmed name x (mid x) out := fun x hx => by
    obtain ⟨ds, h1, h2⟩ := hmid x hx
    have hs := hsh x hx ds (List.mem_of_getElem? h1) (mid x) (List.mem_of_getElem? h2)
    have hcell : (plain (sh x) (data x)).cells[r]? = some (ds.map stored) := by
      unfold plain
      simp [List.getElem?_map, h1]
    unfold final
    by_cases hst : special name ∧ tracer x
    · rw [if_pos hst]
      have h3 := ht x hx hst.1 hst.2
      match he : sh x, h3 with
      | a :: b :: k :: rest, _ =>
        have he' : (plain (sh x) (data x)).shape = a :: b :: k :: rest := he
        rw [← he]
        unfold cut
        simp only [he']
        rw [List.getElem?_map, hcell]
        refine ⟨⟨(a - 6) :: (b - 6) :: k :: rest, fun idx => match idx with
          | i :: j :: r => (stored (mid x)).get ((i + 3) :: (j + 3) :: r)
          | _ => (stored (mid x)).get idx⟩, ⟨_, rfl, ?_⟩, fun h => absurd hst h,
          fun _ => ⟨a, b, k :: rest, by rw [hs, he], rfl, ?_⟩⟩
        · simp [List.getElem?_map, h2]
        · intro i' j' r' hi
          simp only
          refine stored_get _ _ ?_
          rw [hs, he]
          have h1 := hi.1
          have h2 := hi.2.1
          exact ⟨by omega, by omega, hi.2.2⟩
    · rw [if_neg hst]
      refine ⟨stored (mid x), ⟨_, hcell, ?_⟩, fun _ => ⟨rfl, fun idx hi => stored_get _ _ hi⟩, fun h => absurd h hst⟩
      simp [List.getElem?_map, h2]
  let g : String → Nd V := fun x => if h : x ∈ names then (hex x h).choose else mid x
  have hgx : ∀ x (h : x ∈ names), g x = (hex x h).choose := fun x h => by simp only [g]; rw [dif_pos h]
  refine ⟨(names.filter (· ≠ "rank")).map fun x => (x, g x), ?_, ?_, ?_⟩
  · unfold load
    rw [hf]
    cases hl : (names.filter (· ≠ "rank")).map fun x => (x, final name x (sh x) (data x)) with
    | nil =>
      obtain ⟨x, hx, hx'⟩ := hv
      have : x ∈ names.filter (· ≠ "rank") := List.mem_filter.mpr ⟨hx, by simpa using hx'⟩
      rw [List.map_eq_nil_iff] at hl
      rw [hl] at this
      cases this
    | cons y ys =>
      simp only
      rw [← hl, List.mapM_map, mapM_ok _ (fun x => (x, g x))]
      intro x hx
      have hx := (List.mem_filter.mp hx).1
      obtain ⟨ds, h1, h2⟩ := (hex x hx).choose_spec.1
      simp only [Function.comp_apply, h1, fromOpt, bind, Except.bind]
      rw [h2, ← hgx x hx]
      rfl
  · rw [List.map_map]; simp [Function.comp_def]
  · intro x hx hx'
    refine ⟨g x, ?_, ?_⟩
    · have hm' : x ∈ names.filter (· ≠ "rank") := List.mem_filter.mpr ⟨hx, by simpa using hx'⟩
      revert hm'
      generalize names.filter (· ≠ "rank") = l
      intro hm'
      induction l with
      | nil => cases hm'
      | cons y l ih =>
        unfold dictGet at ih ⊢
        rw [List.map_cons, List.find?_cons]
        by_cases hy : y = x
        · subst hy; simp
        · have : ((y, g y).1 == x) = false := by simpa using hy
          rw [this]
          exact ih ((List.mem_cons.mp hm').resolve_left fun h => hy h.symm)
    · rw [hgx x hx]; exact (hex x hx).choose_spec.2

theorem streams_last (c : Conf) (st : Nat → List (Point V)) (name : String) (h0 : 0 < c.ranks) :
    ((List.range c.ranks).map fun r => calls (st r) name).getLastD [] = calls (st (c.ranks - 1)) name := by
  have : c.ranks = (c.ranks - 1) + 1 := by omega
  rw [this, List.range_succ, List.map_append, List.map_cons, List.map_nil, List.getLastD_concat, Nat.add_sub_cancel]

theorem streams_ok (c : Conf) (hd : c.dataName = none) (dir : String → Option (List (Point V))) (name : String)
    (st : Nat → List (Point V)) (ho : ∀ r, r < c.ranks → dir ("Generator_rank" ++ toString r) = some (st r)) (r : Nat) (hr : r < c.ranks) :
    ∃ s, getSerializer dir c r = .ok s ∧ ((List.range c.ranks).map fun r => calls (st r) name)[r]? = some (calls s name) := by
  refine ⟨st r, ?_, by simp [List.getElem?_range hr]⟩
  unfold getSerializer
  simp only [hd, ho r hr, fromOpt]

theorem export_eq (v : Values V) (c : Conf) (hm : c.merge = false) (hd : c.dataName = none) (dir : String → Option (List (Point V)))
    (name : String) (n : Nat) (st : Nat → List (Point V)) (names : List String) (shape : String → List Nat)
    (hR : Regular c dir name n st names shape) (ht : ∀ x ∈ names, special name → tracer x → 3 ≤ (axes (shape x)).length) :
    (exportPoint v c dir (st 0) name = .ok ((names.filter (· ≠ "rank")).map fun x =>
      (x, final name x (axes (shape x)) (arrays v c st name x (shape x))))) ∧
    ∀ x ∈ names, ∀ ds ∈ arrays v c st name x (shape x), ∀ d ∈ ds, d.shape = axes (shape x) := by
  have hsh : ∀ x ∈ names, ∀ ds ∈ arrays v c st name x (shape x), ∀ d ∈ ds, d.shape = axes (shape x) := by
    intro x hx ds hds d hdd
    obtain ⟨r, hr, e⟩ := List.mem_map.mp hds
    rw [← e] at hdd
    obtain ⟨q, hq, e'⟩ := List.mem_map.mp hdd
    rw [← e']
    exact deliver_shape v (shape x) x _ _ (rankOk c dir name n st names shape hR x hx r (List.mem_range.mp hr)) q hq
  refine ⟨?_, hsh⟩
  have c0 := hR.count 0 hR.some_rank
  cases hp : calls (st 0) name with
  | nil => rw [hp] at c0; have := hR.some_call; simp at c0; omega
  | cons p ps =>
    refine export_gen v c dir (st 0) name n p ((List.range c.ranks).map fun r => calls (st r) name) names (by rw [hp]; rfl)
      (hR.first p (by rw [hp]; rfl)) (streams_ok c hd dir name st hR.opened) (by simp) ?_ hR.some_call hR.some_rank _ _ ?_ ht
    · rw [hm, streams_last c st name hR.some_rank]
      exact hR.count _ (by have := hR.some_rank; omega)
    · intro x hx
      refine ⟨?_, by simp [arrays], ?_, hsh x hx⟩
      · rw [ranksVar_eq v c hm (shape x) (hR.axis x hx) x none _ (fun _ h => by cases h)
          (fun pts hpts => by obtain ⟨r, hr, e⟩ := mem_streams c st name pts hpts; rw [e]; exact rankOk c dir name n st names shape hR x hx r hr)
          (fun _ pts hpts => by
            rw [List.head?_map, List.head?_range, if_neg (by have := hR.some_rank; omega)] at hpts
            simp only [Option.map_some, Option.some.injEq] at hpts
            rw [← hpts]
            have k := rankOk c dir name n st names shape hR x hx 0 hR.some_rank
            refine ⟨k.1, ?_⟩
            rcases hR.fields 0 hR.some_rank x hx with h | ⟨_, h, _⟩
            · exact .inl h
            · omega)]
        rw [List.map_map]
        rfl
      · intro ds hds
        obtain ⟨r, hr, e⟩ := List.mem_map.mp hds
        rw [← e, List.length_map]
        exact hR.count r (List.mem_range.mp hr)

/-! ### The files -/

theorem exportAll_spec (v : Values V) (c : Conf) (dir : String → Option (List (Point V))) (first : List (Point V)) :
    ∀ names : List String, let r := exportAll v c dir first names
      ∃ k, r.1.map (·.1) = names.take k ∧ (∀ f ∈ r.1, exportPoint v c dir first f.1 = .ok f.2) ∧
        ((r.2 = none ∧ k = names.length) ∨
          ∃ e x, r.2 = some e ∧ names[k]? = some x ∧ exportPoint v c dir first x = .error e)
  | [] => ⟨0, rfl, (fun f hf => by cases hf), .inl ⟨rfl, rfl⟩⟩
  | x :: xs => by
    obtain ⟨k, h1, h2, h3⟩ := exportAll_spec v c dir first xs
    unfold exportAll
    cases he : exportPoint v c dir first x with
    | error e => exact ⟨0, rfl, (fun f hf => by cases hf), .inr ⟨e, x, rfl, rfl, he⟩⟩
    | ok f =>
      refine ⟨k + 1, ?_, ?_, ?_⟩
      · simp only [List.map_cons, List.take_succ_cons, h1]
      · intro g hg
        rcases List.mem_cons.mp hg with e | hg
        · rw [e]; exact he
        · exact h2 g hg
      · rcases h3 with ⟨a, b⟩ | ⟨e, y, a, b, c'⟩
        · exact .inl ⟨a, by simp [b]⟩
        · exact .inr ⟨e, y, a, by simpa using b, c'⟩

/-- C112: files are written one for each savepoint of rank 0, in the order of names, until the first that cannot be converted. -/
theorem C112_files (v : Values V) (c : Conf) (dir : String → Option (List (Point V))) (first : List (Point V))
    (h : getSerializer dir c 0 = .ok first) :
    ∃ (names : List String) (k : Nat), names.Nodup ∧ names.Pairwise (· ≤ ·) ∧ (∀ x, x ∈ names ↔ ∃ p ∈ first, p.name = x) ∧
      (convert v c dir).1.map (·.1) = names.take k ∧
      (∀ f ∈ (convert v c dir).1, exportPoint v c dir first f.1 = .ok f.2) ∧
      (((convert v c dir).2 = none ∧ k = names.length) ∨
        ∃ e x, (convert v c dir).2 = some e ∧ names[k]? = some x ∧ exportPoint v c dir first x = .error e) := by
  have hp := List.mergeSort_perm ((first.map (·.name)).eraseDups) (fun a b => decide (a ≤ b))
  obtain ⟨k, h1, h2, h3⟩ := exportAll_spec v c dir first (((first.map (·.name)).eraseDups).mergeSort fun a b => decide (a ≤ b))
  refine ⟨_, k, hp.nodup_iff.mpr (TestCases.eraseDups_nodup _), ?_, fun x => ?_, ?_, ?_, ?_⟩
  · have := List.pairwise_mergeSort (le := fun a b : String => decide (a ≤ b))
      (fun a b c h1 h2 => by simp only [decide_eq_true_eq] at *; exact String.le_trans h1 h2)
      (fun a b => by simp only [Bool.or_eq_true, decide_eq_true_eq]; exact String.le_total a b)
      ((first.map (·.name)).eraseDups)
    exact this.imp fun h => by simpa using h
  · rw [hp.mem_iff, List.mem_eraseDups, List.mem_map]
  · unfold convert; rw [h]; exact h1
  · unfold convert; rw [h]; exact h2
  · unfold convert; rw [h]; exact h3

theorem find_of_nodup {α : Type} (l : List (String × α)) (h : (l.map (·.1)).Nodup) (f : String × α) (hf : f ∈ l) :
    dictGet l f.1 = some f.2 := by
  unfold dictGet
  induction l with
  | nil => cases hf
  | cons g l ih =>
    rw [List.map_cons, List.nodup_cons] at h
    rw [List.find?_cons]
    rcases List.mem_cons.mp hf with e | hf
    · subst e; simp
    · have : (g.1 == f.1) = false := by
        rw [beq_eq_false_iff_ne]
        intro e
        exact h.1 (e ▸ List.mem_map.mpr ⟨f, hf, rfl⟩)
      rw [this]
      exact ih h.2 hf

/-- The file of a savepoint after a conversion that ended without error. -/
theorem file_of (v : Values V) (c : Conf) (dir : String → Option (List (Point V))) (first : List (Point V))
    (h : getSerializer dir c 0 = .ok first) (hn : (convert v c dir).2 = none) (x : String) (hx : ∃ p ∈ first, p.name = x) :
    ∃ f, dictGet (convert v c dir).1 x = some f ∧ exportPoint v c dir first x = .ok f := by
  obtain ⟨names, k, h1, -, h3, h4, h5, h6⟩ := C112_files v c dir first h
  rcases h6 with ⟨-, e⟩ | ⟨e, _, h7, _⟩
  · rw [e, List.take_length] at h4
    have hm : x ∈ (convert v c dir).1.map (·.1) := by rw [h4]; exact (h3 x).mpr hx
    obtain ⟨f, hf, e'⟩ := List.mem_map.mp hm
    refine ⟨f.2, ?_, by rw [← e']; exact h5 f hf⟩
    rw [← e']
    exact find_of_nodup _ (by rw [h4]; exact h1) f hf
  · rw [hn] at h7; cases h7

/-- C112: a conversion of streams that agree at every savepoint ends without error. -/
theorem C112_completes (v : Values V) (c : Conf) (hm : c.merge = false) (hd : c.dataName = none) (dir : String → Option (List (Point V)))
    (st : Nat → List (Point V)) (h0 : dir ("Generator_rank" ++ toString 0) = some (st 0))
    (h : ∀ p ∈ st 0, ∃ n names shape, Regular c dir p.name n st names shape ∧
      ∀ x ∈ names, special p.name → tracer x → 3 ≤ (axes (shape x)).length) :
    (convert v c dir).2 = none := by
  have hs : getSerializer dir c 0 = .ok (st 0) := by unfold getSerializer; simp only [hd, h0, fromOpt]
  obtain ⟨names, k, -, -, h3, -, -, h6⟩ := C112_files v c dir (st 0) hs
  rcases h6 with ⟨e, -⟩ | ⟨e, x, -, h8, h9⟩
  · exact e
  · obtain ⟨p, hp, e'⟩ := (h3 x).mp (List.mem_of_getElem? h8)
    obtain ⟨n, ns, shape, hR, ht⟩ := h p hp
    rw [← e', (export_eq v c hm hd dir p.name n st ns shape hR ht).1] at h9
    cases h9

/-! ### Reading the files -/

/-- C112: what a test reads for a rank and call from the file of a savepoint is what that rank wrote at that call. -/
theorem C112_roundtrip (v : Values V) (c : Conf) (hm : c.merge = false) (hd : c.dataName = none) (dir : String → Option (List (Point V)))
    (name : String) (n : Nat) (st : Nat → List (Point V)) (names : List String) (shape : String → List Nat)
    (hR : Regular c dir name n st names shape) (ht : ∀ x ∈ names, special name → tracer x → 3 ≤ (axes (shape x)).length)
    (hv : ∃ x ∈ names, x ≠ "rank") (he : (convert v c dir).2 = none) (r : Nat) (hr : r < c.ranks) (i : Nat)
    (p : Point V) (hp : (calls (st r) name)[i]? = some p) :
    ∃ data, load (convert v c dir).1 name r i = .ok data ∧ data.map (·.1) = names.filter (· ≠ "rank") ∧
      ∀ x ∈ names, x ≠ "rank" → ∃ mid out, dictGet data x = some out ∧ Trimmed name x mid out ∧
        (∀ raw, dictGet p.fields x = some raw → Delivers v raw mid) ∧
        (dictGet p.fields x = none → mid.shape = axes (shape x) ∧ ∀ idx, isIndex mid.shape idx → mid.get idx = v.nan) := by
  obtain ⟨hx, hsh⟩ := export_eq v c hm hd dir name n st names shape hR ht
  have hs : getSerializer dir c 0 = .ok (st 0) := by
    unfold getSerializer; simp only [hd, hR.opened 0 hR.some_rank, fromOpt]
  obtain ⟨f, hf, he'⟩ := file_of v c dir (st 0) hs he name (by
    have c0 := hR.count 0 hR.some_rank
    cases hc : calls (st 0) name with
    | nil => rw [hc] at c0; have := hR.some_call; simp at c0; omega
    | cons q _ =>
      have : q ∈ calls (st 0) name := by rw [hc]; exact List.mem_cons_self
      obtain ⟨h1, h2⟩ := List.mem_filter.mp this
      exact ⟨q, h1, by simpa using h2⟩)
  rw [hx] at he'
  injection he' with he'
  rw [← he'] at hf
  obtain ⟨out, h1, h2, h3⟩ := load_gen c name names _ _ hsh ht hv (convert v c dir).1 hf r i (fun x => deliver v (shape x) x p)
    (fun x hx => ⟨(calls (st r) name).map (deliver v (shape x) x), by simp [arrays, List.getElem?_range hr],
      by simp [List.getElem?_map, hp]⟩)
  refine ⟨out, h1, h2, fun x hx hxr => ?_⟩
  obtain ⟨o, ho, hT⟩ := h3 x hx hxr
  refine ⟨deliver v (shape x) x p, o, ho, hT, fun raw h => by unfold deliver; rw [h]; exact cleaned_delivers v raw, fun h => ?_⟩
  refine ⟨deliver_shape v (shape x) x _ _ (rankOk c dir name n st names shape hR x hx r hr) p (List.mem_of_getElem? hp), fun idx _ => ?_⟩
  unfold deliver; rw [h]

/-! ### Blocks -/

/-- What is made of the blocks `ds`, the first of which is `d`. -/
def merged (c : Conf) (d : Nd V) (ds : List (Nd V)) : Nd V :=
  match d.shape with
  | [] => d
  | m :: rest =>
    if c.nx * c.ny = ds.length * m then
      ⟨c.nx :: c.ny :: rest, fun idx => match idx with
        | i :: j :: r => (ds.getD ((i * c.ny + j) / m) d).get ((i * c.ny + j) % m :: r)
        | _ => d.get idx⟩
    else d

omit [DecidableEq V] in
theorem merge_eq (c : Conf) (d : Nd V) (ds : List (Nd V)) (h : ∀ e ∈ ds, e.shape = d.shape) :
    mergeBlocks c (d :: ds) = .ok [merged c d (d :: ds)] := by
  unfold mergeBlocks merged
  simp only
  rw [if_pos]
  · cases d.shape with
    | nil => rfl
    | cons m rest =>
      simp only
      split <;> rfl
  · rw [List.all_eq_true]
    intro e he
    rcases List.mem_cons.mp he with e' | he
    · simp [e']
    · simpa using h e he

/-- The array of a rank. -/
def rankMerged (v : Values V) (c : Conf) (sh : List Nat) (x : String) : List (Point V) → Nd V
  | [] => ⟨sh, fun _ => v.nan⟩
  | p :: ps => merged c (deliver v sh x p) ((p :: ps).map (deliver v sh x))

theorem rankVar_merge (v : Values V) (c : Conf) (hm : c.merge = true) (sh : List Nat) (hsh : sh ≠ []) (x : String) (prev : Option (Nd V))
    (pts : List (Point V)) (hl : 1 < pts.length) (h : ∀ p ∈ pts, ∃ d, dictGet p.fields x = some d ∧ d.shape = sh) :
    rankVar v c x prev pts = .ok [rankMerged v c sh x pts] := by
  cases pts with
  | nil => simp at hl
  | cons p ps =>
    unfold rankVar
    simp only
    obtain ⟨d0, hd0, -⟩ := h p List.mem_cons_self
    rw [hd0]
    have e : (p :: ps).mapM (read v x) = .ok ((p :: ps).map (deliver v sh x)) := mapM_ok _ _ _ fun q hq => by
      obtain ⟨d, hd, hs⟩ := h q hq
      rw [read_eq v x q d hd (by rw [hs]; exact hsh)]
      unfold deliver
      rw [hd]
    rw [e]
    have hps : ps ≠ [] := fun e => by rw [e] at hl; simp at hl
    have hk : RankOk sh x true (p :: ps) := ⟨by simp, .inl h⟩
    have := merge_eq c (deliver v sh x p) (ps.map (deliver v sh x)) fun e he => by
      obtain ⟨q, hq, e'⟩ := List.mem_map.mp he
      rw [← e', deliver_shape v sh x _ _ hk q (List.mem_cons_of_mem _ hq), deliver_shape v sh x _ _ hk p List.mem_cons_self]
    simp only [Option.isNone_some, Bool.false_eq_true, if_false, bind, Except.bind, hm, List.length_map, hl, decide_true, Bool.and_true,
      if_true, List.map_cons, List.length_cons, List.length_map]
    rw [if_pos (by simpa using hl), this]
    rfl

theorem ranksVar_gen (v : Values V) (c : Conf) (x : String) (g : List (Point V) → List (Nd V)) :
    ∀ (prev : Option (Nd V)) (ss : List (List (Point V))) (_ : ∀ pts ∈ ss, ∀ q, rankVar v c x q pts = .ok (g pts)),
      ranksVar v c x prev ss = .ok (ss.map g)
  | _, [], _ => rfl
  | prev, pts :: more, h => by
    unfold ranksVar
    rw [h pts List.mem_cons_self]
    simp only [bind, Except.bind]
    rw [ranksVar_gen v c x g _ more fun q hq => h q (List.mem_cons_of_mem _ hq)]
    rfl

/-- The axes of what is made of `k` blocks of shape `sh`. -/
def mergedAxes (c : Conf) (k : Nat) (sh : List Nat) : List Nat :=
  match sh with
  | [] => []
  | m :: rest => if c.nx * c.ny = k * m then c.nx :: c.ny :: rest else m :: rest

theorem rankMerged_shape (v : Values V) (c : Conf) (sh : List Nat) (x : String) (pts : List (Point V)) (hp : pts ≠ [])
    (h : ∀ p ∈ pts, ∃ d, dictGet p.fields x = some d ∧ d.shape = sh) :
    (rankMerged v c sh x pts).shape = mergedAxes c pts.length (axes sh) := by
  cases pts with
  | nil => exact absurd rfl hp
  | cons p ps =>
    have hs := deliver_shape v sh x true _ ⟨hp, .inl h⟩ p List.mem_cons_self
    unfold rankMerged merged mergedAxes
    simp only
    rw [hs]
    cases ha : axes sh with
    | nil => exact hs.trans ha
    | cons m rest =>
      simp only [List.length_map]
      split
      · rfl
      · exact hs.trans ha

theorem blocks_load (v : Values V) (c : Conf) (hm : c.merge = true) (hd : c.dataName = none) (dir : String → Option (List (Point V)))
    (name : String) (k : Nat) (st : Nat → List (Point V)) (names : List String) (shape : String → List Nat)
    (hR : Blocks c dir name k st names shape)
    (ht : ∀ x ∈ names, special name → tracer x → 3 ≤ (mergedAxes c k (axes (shape x))).length)
    (hv : ∃ x ∈ names, x ≠ "rank") (he : (convert v c dir).2 = none) (r : Nat) (hr : r < c.ranks) :
    ∃ data, load (convert v c dir).1 name r 0 = .ok data ∧ data.map (·.1) = names.filter (· ≠ "rank") ∧
      ∀ x ∈ names, x ≠ "rank" → ∃ out, dictGet data x = some out ∧
        Trimmed name x (rankMerged v c (shape x) x (calls (st r) name)) out := by
  have hne : ∀ r, r < c.ranks → calls (st r) name ≠ [] := fun r hr e => by
    have := hR.count r hr
    rw [e] at this
    have := hR.some_block
    simp at *; omega
  let data : String → List (List (Nd V)) := fun x => (List.range c.ranks).map fun r => [rankMerged v c (shape x) x (calls (st r) name)]
  have hsh : ∀ x ∈ names, ∀ ds ∈ data x, ∀ d ∈ ds, d.shape = mergedAxes c k (axes (shape x)) := by
    intro x hx ds hds d hdd
    obtain ⟨r, hr, e⟩ := List.mem_map.mp hds
    have hr := List.mem_range.mp hr
    rw [← e, List.mem_singleton] at hdd
    rw [hdd, rankMerged_shape v c (shape x) x _ (hne r hr) (hR.fields r hr x hx), hR.count r hr]
  have hx : exportPoint v c dir (st 0) name = .ok ((names.filter (· ≠ "rank")).map fun x =>
      (x, final name x (mergedAxes c k (axes (shape x))) (data x))) := by
    cases hp : calls (st 0) name with
    | nil => exact absurd hp (hne 0 hR.some_rank)
    | cons p ps =>
      refine export_gen v c dir (st 0) name 1 p ((List.range c.ranks).map fun r => calls (st r) name) names (by rw [hp]; rfl)
        (hR.first p (by rw [hp]; rfl)) (streams_ok c hd dir name st hR.opened) (by simp) (by rw [hm]; rfl) Nat.one_pos hR.some_rank data _ ?_ ht
      intro x hx
      refine ⟨?_, by simp [data], ?_, hsh x hx⟩
      · rw [ranksVar_gen v c x (fun pts => [rankMerged v c (shape x) x pts]) none _ fun pts hpts q => by
          obtain ⟨r, hr, e⟩ := mem_streams c st name pts hpts
          rw [e]
          exact rankVar_merge v c hm (shape x) (hR.axis x hx) x q _ (by rw [hR.count r hr]; exact hR.some_block) (hR.fields r hr x hx)]
        rw [List.map_map]
        rfl
      · intro ds hds
        obtain ⟨r, hr, e⟩ := List.mem_map.mp hds
        rw [← e]
        rfl
  have hs : getSerializer dir c 0 = .ok (st 0) := by
    unfold getSerializer; simp only [hd, hR.opened 0 hR.some_rank, fromOpt]
  obtain ⟨f, hf, he'⟩ := file_of v c dir (st 0) hs he name (by
    cases hc : calls (st 0) name with
    | nil => exact absurd hc (hne 0 hR.some_rank)
    | cons q _ =>
      have : q ∈ calls (st 0) name := by rw [hc]; exact List.mem_cons_self
      obtain ⟨h1, h2⟩ := List.mem_filter.mp this
      exact ⟨q, h1, by simpa using h2⟩)
  rw [hx] at he'
  injection he' with he'
  rw [← he'] at hf
  exact load_gen c name names _ _ hsh ht hv (convert v c dir).1 hf r 0 (fun x => rankMerged v c (shape x) x (calls (st r) name))
    (fun x hx => ⟨[rankMerged v c (shape x) x (calls (st r) name)], by simp [data, List.getElem?_range hr], rfl⟩)

/-- C112: blocks with as many points as the part of the tile are laid out there row by row, each point once. -/
theorem C112_blocks (v : Values V) (c : Conf) (hm : c.merge = true) (hd : c.dataName = none) (dir : String → Option (List (Point V)))
    (name : String) (k : Nat) (st : Nat → List (Point V)) (names : List String) (shape : String → List Nat)
    (hR : Blocks c dir name k st names shape)
    (ht : ∀ x ∈ names, special name → tracer x → 3 ≤ (mergedAxes c k (axes (shape x))).length)
    (he : (convert v c dir).2 = none) (r : Nat) (hr : r < c.ranks) (x : String) (hx : x ∈ names) (hxr : x ≠ "rank")
    (m : Nat) (rest : List Nat) (ha : axes (shape x) = m :: rest) (hk : c.nx * c.ny = k * m) :
    ∃ data mid out, load (convert v c dir).1 name r 0 = .ok data ∧ dictGet data x = some out ∧ Trimmed name x mid out ∧
      mid.shape = c.nx :: c.ny :: rest ∧
      ∀ i j idx, i < c.nx → j < c.ny → ∃ b t part raw p, i * c.ny + j = b * m + t ∧ t < m ∧ (calls (st r) name)[b]? = some p ∧
        dictGet p.fields x = some raw ∧ Delivers v raw part ∧ mid.get (i :: j :: idx) = part.get (t :: idx) := by
  obtain ⟨data, h1, -, h3⟩ := blocks_load v c hm hd dir name k st names shape hR ht ⟨x, hx, hxr⟩ he r hr
  obtain ⟨out, ho, hT⟩ := h3 x hx hxr
  refine ⟨data, _, out, h1, ho, hT, ?_, ?_⟩
  · rw [rankMerged_shape v c (shape x) x _ (fun e => by
      have := hR.count r hr
      rw [e] at this
      have := hR.some_block
      simp at *; omega) (hR.fields r hr x hx), hR.count r hr, ha]
    unfold mergedAxes
    simp only
    rw [if_pos hk]
  · intro i j idx hi hj
    have hlt : i * c.ny + j < k * m := by
      rw [← hk]
      calc i * c.ny + j < i * c.ny + c.ny := by omega
        _ = (i + 1) * c.ny := by rw [Nat.add_mul, Nat.one_mul]
        _ ≤ c.nx * c.ny := Nat.mul_le_mul_right _ hi
    have hm0 : 0 < m := by
      rcases Nat.eq_zero_or_pos m with e | e
      · rw [e] at hlt; omega
      · exact e
    have hb : (i * c.ny + j) / m < (calls (st r) name).length := by
      rw [hR.count r hr]
      exact Nat.div_lt_of_lt_mul (by rw [Nat.mul_comm m k]; exact hlt)
    obtain ⟨raw, hraw, hs⟩ := hR.fields r hr x hx (calls (st r) name)[(i * c.ny + j) / m] (List.getElem_mem hb)
    refine ⟨(i * c.ny + j) / m, (i * c.ny + j) % m, cleaned v raw, raw, (calls (st r) name)[(i * c.ny + j) / m], ?_, Nat.mod_lt _ hm0,
      List.getElem?_eq_getElem hb, hraw, cleaned_delivers v raw, ?_⟩
    · rw [Nat.mul_comm _ m]; exact (Nat.div_add_mod _ _).symm
    · cases hc : calls (st r) name with
      | nil => rw [hc] at hb; simp at hb
      | cons p ps =>
        have hsh := deliver_shape v (shape x) x true _ ⟨by simp, .inl (hc ▸ hR.fields r hr x hx)⟩ p List.mem_cons_self
        unfold rankMerged merged
        simp only
        rw [hsh, ha]
        have hl : (p :: ps).length = k := by rw [← hc]; exact hR.count r hr
        simp only [List.length_map, hl, hk, if_true]
        have hg : (List.map (deliver v (shape x) x) (p :: ps)).getD ((i * c.ny + j) / m) (deliver v (shape x) x p) = cleaned v raw := by
          rw [List.getD_eq_getElem?_getD, List.getElem?_map, ← hc, List.getElem?_eq_getElem hb]
          simp only [Option.map_some, Option.getD_some]
          unfold deliver
          rw [hraw]
        rw [hg]

/-- Otherwise only the first block is kept. -/
theorem C112_blocks_violated (v : Values V) (c : Conf) (hm : c.merge = true) (hd : c.dataName = none)
    (dir : String → Option (List (Point V))) (name : String) (k : Nat) (st : Nat → List (Point V)) (names : List String)
    (shape : String → List Nat) (hR : Blocks c dir name k st names shape)
    (ht : ∀ x ∈ names, special name → tracer x → 3 ≤ (mergedAxes c k (axes (shape x))).length)
    (he : (convert v c dir).2 = none) (r : Nat) (hr : r < c.ranks) (x : String) (hx : x ∈ names) (hxr : x ≠ "rank")
    (hk : ∀ m rest, axes (shape x) = m :: rest → c.nx * c.ny ≠ k * m) :
    ∃ data mid out raw p, load (convert v c dir).1 name r 0 = .ok data ∧ dictGet data x = some out ∧ Trimmed name x mid out ∧
      (calls (st r) name)[0]? = some p ∧ dictGet p.fields x = some raw ∧ Delivers v raw mid := by
  obtain ⟨data, h1, -, h3⟩ := blocks_load v c hm hd dir name k st names shape hR ht ⟨x, hx, hxr⟩ he r hr
  obtain ⟨out, ho, hT⟩ := h3 x hx hxr
  cases hc : calls (st r) name with
  | nil =>
    have := hR.count r hr
    rw [hc] at this
    have := hR.some_block
    simp at *; omega
  | cons p ps =>
    obtain ⟨raw, hraw, hs⟩ := hR.fields r hr x hx p (by rw [hc]; exact List.mem_cons_self)
    refine ⟨data, _, out, raw, p, h1, ho, hT, rfl, hraw, ?_⟩
    have hsh := deliver_shape v (shape x) x true _ ⟨by simp, .inl (hc ▸ hR.fields r hr x hx)⟩ p List.mem_cons_self
    have hl : (p :: ps).length = k := by rw [← hc]; exact hR.count r hr
    have e : rankMerged v c (shape x) x (calls (st r) name) = cleaned v raw := by
      rw [hc]
      have e1 : deliver v (shape x) x p = cleaned v raw := by unfold deliver; rw [hraw]
      rw [← e1]
      unfold rankMerged merged
      simp only
      rw [hsh]
      cases ha : axes (shape x) with
      | nil => rfl
      | cons m rest =>
        simp only [List.length_map, hl]
        rw [if_neg (hk m rest ha)]
    rw [e]
    exact cleaned_delivers v raw

/-! ### Different sizes on the ranks -/

/-- The values of an array of one axis. -/
def listOf (d : Nd V) : List V := (List.range (d.shape.headD 0)).map fun i => d.get [i]

omit [DecidableEq V] in
theorem values1_eq (d : Nd V) (k : Nat) (h : d.shape = [k]) : values1 d = .ok (listOf d) := by
  unfold values1 listOf
  rw [h]
  rfl

omit [DecidableEq V] in
theorem listOf_length (d : Nd V) (k : Nat) (h : d.shape = [k]) : (listOf d).length = k := by
  unfold listOf; simp [h]

omit [DecidableEq V] in
theorem writeAt_mid (a b d : List V) (h : d.length ≤ b.length) : writeAt (a ++ b) a.length d = .ok (a ++ d ++ b.drop d.length) := by
  unfold writeAt
  rw [if_pos (by rw [List.length_append]; omega)]
  simp

omit [DecidableEq V] in
theorem collapse_one (nan : V) : ∀ (data : List (Nd V)) (done : List V) (k : Nat) (_ : ∀ d ∈ data, ∃ k, d.shape = [k])
    (_ : k = (data.map fun d => (listOf d).length).sum),
    collapseAll 1 (data.map fun d => [d]) ([done ++ List.replicate k nan], done.length) =
      .ok ([done ++ data.flatMap listOf], (done ++ data.flatMap listOf).length)
  | [], done, k, _, hk => by
    have : k = 0 := by simpa using hk
    subst this
    simp [collapseAll]
  | d :: ds, done, k, h, hk => by
    obtain ⟨m, hm⟩ := h d List.mem_cons_self
    have hl := listOf_length d m hm
    rw [List.map_cons, List.sum_cons] at hk
    have hw := writeAt_mid done (List.replicate k nan) (listOf d) (by rw [List.length_replicate]; omega)
    have ih := collapse_one nan ds (done ++ listOf d) (k - (listOf d).length) (fun e he => h e (List.mem_cons_of_mem _ he)) (by omega)
    unfold collapseAll
    rw [show List.range 1 = [0] from rfl]
    simp only [List.map_cons, List.map_nil, collapseRank, List.getElem?_cons_zero, fromOpt, bind, Except.bind, values1_eq d m hm,
      List.getD_cons_zero, List.set_cons_zero]
    rw [hw]
    simp only [List.drop_replicate]
    rw [show done.length + (listOf d).length = (done ++ listOf d).length by simp]
    rw [List.flatMap_cons]
    simp only [List.append_assoc] at ih ⊢
    exact ih

/-- C112: arrays of one axis whose sizes differ between ranks are put one after the other, in the order of ranks, if there is one call. -/
theorem C112_collapsed (v : Values V) (name x : String) (hs : special name = false) (d : Nd V) (ds : List (Nd V))
    (h1 : ∀ e ∈ d :: ds, ∃ k, e.shape = [k]) (h2 : ∃ e ∈ ds, e.shape ≠ d.shape) :
    ∃ out, exportVar v name x 1 ((d :: ds).map fun e => [e]) = .ok ⟨1, out.shape, [[out]]⟩ ∧
      out.shape = [((d :: ds).flatMap listOf).length] ∧ listOf out = (d :: ds).flatMap listOf := by
  have hc : ∀ l : List (Nd V), (∃ e ∈ l, e.shape ≠ d.shape) → collapses d.shape ((l.map fun e => [e]).map shapeOf) = .ok true := by
    intro l
    induction l with
    | nil => rintro ⟨e, he, -⟩; cases he
    | cons a l ih =>
      intro ⟨e, he, hne⟩
      unfold collapses
      simp only [List.map_cons, shapeOf, List.head?_cons, Option.map_some, Option.getD_some]
      by_cases ha : a.shape = d.shape
      · rw [if_neg (by simp [ha])]
        rcases List.mem_cons.mp he with e' | he
        · exact absurd (e' ▸ ha) hne
        · exact ih ⟨e, he, hne⟩
      · rw [if_pos ha]
        obtain ⟨k, hk⟩ := h1 d List.mem_cons_self
        rw [if_neg (by simp [hk])]
  have hsum : (((d :: ds).map fun e => [e]).map fun l => (shapeOf l).headD 0).sum = ((d :: ds).map fun e => (listOf e).length).sum := by
    rw [List.map_map]
    congr 1
    apply List.map_congr_left
    intro e he
    obtain ⟨k, hk⟩ := h1 e he
    rw [listOf_length e k hk]
    simp [shapeOf, hk]
  have hlen : ((d :: ds).map fun e => (listOf e).length).sum = ((d :: ds).flatMap listOf).length := by
    rw [List.length_flatMap]
  have hrun := collapse_one v.nan (d :: ds) [] _ h1 rfl
  rw [List.nil_append, List.nil_append] at hrun
  unfold exportVar
  rw [show shapeOf (((d :: ds).map fun e => [e]).headD []) = d.shape from rfl]
  obtain ⟨e, he, hne⟩ := h2
  dsimp only
  rw [hc (d :: ds) ⟨e, List.mem_cons_of_mem _ he, hne⟩]
  simp only [hs, bind, Except.bind, Bool.false_eq_true, if_false, if_true]
  unfold getCollapsed
  rw [if_pos (by
    rw [List.all_eq_true]
    intro l hl
    obtain ⟨e, he, e'⟩ := List.mem_map.mp hl
    obtain ⟨k, hk⟩ := h1 e he
    rw [← e']
    simp [shapeOf, hk])]
  simp only [hsum, bind, Except.bind, List.replicate_one]
  simp only [List.length_nil] at hrun
  rw [hrun]
  refine ⟨⟨[((d :: ds).flatMap listOf).length], fun idx => ((d :: ds).flatMap listOf).getD (idx.headD 0) v.nan⟩, ?_, rfl, ?_⟩
  · rw [hlen]; rfl
  · unfold listOf
    apply List.ext_getElem
    · simp
    · intro i a b
      simp only [List.getElem_map, List.getElem_range, List.headD_cons]
      rw [List.getD_eq_getElem?_getD, List.getElem?_eq_getElem b, Option.getD_some]

omit [DecidableEq V] in
theorem writeAt_fits (buf d b : List V) (lo : Nat) (h : writeAt buf lo d = .ok b) (h1 : d.length ≠ 1) (hlo : lo ≤ buf.length) :
    lo + d.length ≤ buf.length ∧ b.length = buf.length := by
  unfold writeAt at h
  by_cases hc : d.length = min (lo + d.length) buf.length - min lo buf.length
  · rw [if_pos hc] at h
    injection h with h
    have : lo + d.length ≤ buf.length := by omega
    refine ⟨this, ?_⟩
    rw [← h]
    simp
    omega
  · rw [if_neg hc, if_neg h1] at h
    cases h

omit [DecidableEq V] in
theorem collapseRank_fits (K k : Nat) (hk : k ≠ 1) (ds : List (Nd V)) : ∀ (is : List Nat) (bufs : List (List V)) (last : Nat)
    (out : List (List V) × Nat) (_ : collapseRank ds is (bufs, last) = .ok out) (_ : ∀ i ∈ is, i < bufs.length ∧ ∃ d, ds[i]? = some d ∧ d.shape = [k])
    (_ : ∀ b ∈ bufs, b.length = K) (_ : last ≤ K),
    out.2 = last + is.length * k ∧ out.2 ≤ K ∧ out.1.length = bufs.length ∧ ∀ b ∈ out.1, b.length = K
  | [], bufs, last, out, h, _, hb, hl => by
    unfold collapseRank at h
    injection h with h
    rw [← h]
    exact ⟨by simp, hl, rfl, hb⟩
  | i :: is, bufs, last, out, h, hi, hb, hl => by
    obtain ⟨h1, d, h2, h3⟩ := hi i List.mem_cons_self
    unfold collapseRank at h
    simp only [h2, fromOpt, bind, Except.bind, values1_eq d k h3] at h
    cases hw : writeAt (bufs.getD i []) last (listOf d) with
    | error e => rw [hw] at h; cases h
    | ok b =>
      rw [hw] at h
      simp only at h
      have hlen := listOf_length d k h3
      have hbi : (bufs.getD i []).length = K := by
        rw [List.getD_eq_getElem?_getD, List.getElem?_eq_getElem h1]
        exact hb _ (List.getElem_mem h1)
      obtain ⟨f1, f2⟩ := writeAt_fits _ _ _ _ hw (by rw [hlen]; exact hk) (by rw [hbi]; exact hl)
      rw [hbi, hlen] at f1
      have ih := collapseRank_fits K k hk ds is (bufs.set i b) (last + (listOf d).length) out h
        (fun j hj => ⟨by rw [List.length_set]; exact (hi j (List.mem_cons_of_mem _ hj)).1, (hi j (List.mem_cons_of_mem _ hj)).2⟩)
        (fun x hx => by
          rcases List.mem_or_eq_of_mem_set hx with hx | hx
          · exact hb x hx
          · rw [hx, f2, hbi])
        (by rw [hlen]; exact f1)
      obtain ⟨i1, i2, i3, i4⟩ := ih
      refine ⟨?_, i2, by rw [i3, List.length_set], i4⟩
      rw [i1, hlen, List.length_cons, Nat.add_mul]
      omega

omit [DecidableEq V] in
theorem collapseAll_fits (K n : Nat) : ∀ (data : List (List (Nd V))) (bufs : List (List V)) (last : Nat) (out : List (List V) × Nat)
    (_ : collapseAll n data (bufs, last) = .ok out) (_ : bufs.length = n)
    (_ : ∀ ds ∈ data, ∃ k, k ≠ 1 ∧ shapeOf ds = [k] ∧ ∀ i, i < n → ∃ d, ds[i]? = some d ∧ d.shape = [k])
    (_ : ∀ b ∈ bufs, b.length = K) (_ : last ≤ K),
    out.2 = last + n * (data.map fun ds => (shapeOf ds).headD 0).sum ∧ out.2 ≤ K
  | [], bufs, last, out, h, _, _, _, hl => by
    unfold collapseAll at h
    injection h with h
    rw [← h]
    exact ⟨by simp, hl⟩
  | ds :: more, bufs, last, out, h, hn, hd, hb, hl => by
    obtain ⟨k, k1, k2, k3⟩ := hd ds List.mem_cons_self
    unfold collapseAll at h
    cases hr : collapseRank ds (List.range n) (bufs, last) with
    | error e => rw [hr] at h; cases h
    | ok st =>
      obtain ⟨b', l'⟩ := st
      rw [hr] at h
      obtain ⟨r1, r2, r3, r4⟩ := collapseRank_fits K k k1 ds (List.range n) bufs last (b', l') hr
        (fun i hi => ⟨by rw [hn]; exact List.mem_range.mp hi, k3 i (List.mem_range.mp hi)⟩) hb hl
      obtain ⟨a1, a2⟩ := collapseAll_fits K n more b' l' out h (by rw [r3]; exact hn) (fun e he => hd e (List.mem_cons_of_mem _ he)) r4 r2
      refine ⟨?_, a2⟩
      simp only [List.length_range] at r1
      rw [a1, r1, List.map_cons, List.sum_cons, k2, List.headD_cons, Nat.mul_add]
      omega

/-- With several calls they cannot be stored at all. -/
theorem C112_collapsed_violated (v : Values V) (n : Nat) (hn : 2 ≤ n) (data : List (List (Nd V)))
    (hd : ∀ ds ∈ data, ∃ k, k ≠ 1 ∧ shapeOf ds = [k] ∧ ∀ i, i < n → ∃ d, ds[i]? = some d ∧ d.shape = [k])
    (hk : 0 < (data.map fun ds => (shapeOf ds).headD 0).sum) : ∃ e, getCollapsed v n data = .error e := by
  unfold getCollapsed
  by_cases ha : data.all (fun ds => (shapeOf ds).length == 1) = true
  · rw [if_pos ha]
    simp only [bind, Except.bind]
    cases hc : collapseAll n data (List.replicate n (List.replicate (data.map fun ds => (shapeOf ds).headD 0).sum v.nan), 0) with
    | error e => exact ⟨e, rfl⟩
    | ok out =>
      obtain ⟨h1, h2⟩ := collapseAll_fits _ n data _ 0 out hc (List.length_replicate ..) hd
        (fun b hb => by rw [(List.mem_replicate.mp hb).2, List.length_replicate]) (Nat.zero_le _)
      exfalso
      have : 2 * (data.map fun ds => (shapeOf ds).headD 0).sum ≤ n * (data.map fun ds => (shapeOf ds).headD 0).sum :=
        Nat.mul_le_mul_right _ hn
      omega
  · rw [if_neg ha]; exact ⟨_, rfl⟩

omit [DecidableEq V] in
/-- A file cannot have such a variable beside one of all ranks. -/
theorem C112_together_violated (x y : String) (a b : Var V) (l : List (String × Var V)) (ha : a.ranks = 1) (hb : b.ranks ≠ 1)
    (hy : (y, b) ∈ l) : dataset ((x, a) :: l) = .error .valueError := by
  unfold dataset
  simp only
  rw [if_neg]
  intro h
  rw [List.all_eq_true] at h
  have := h (y, b) hy
  rw [beq_iff_eq] at this
  exact hb (this.trans ha)

/-! ### What is meant by ranks, parts and tracers -/

/-- C112: the ranks are those of the layout, on six tiles for the types of grid up to 3; a part has the cells of the tile divided by the
layout, if that divides them. -/
theorem C112_ranks (c : Conf) (nx ny : Nat) (h0 : 0 < c.layout.1) (h1 : 0 < c.layout.2) (hx : c.npx = nx * c.layout.1 + 1)
    (hy : c.npy = ny * c.layout.2 + 1) : c.nx = nx ∧ c.ny = ny ∧ (c.gridType ≤ 3 → c.ranks = 6 * (c.layout.1 * c.layout.2)) ∧
    (3 < c.gridType → c.ranks = c.layout.1 * c.layout.2) := by
  unfold Conf.nx Conf.ny Conf.ranks
  refine ⟨?_, ?_, fun h => ?_, fun h => ?_⟩
  · rw [hx, Nat.add_sub_cancel, Nat.mul_div_cancel _ h0]
  · rw [hy, Nat.add_sub_cancel, Nat.mul_div_cancel _ h1]
  · rw [if_pos h, Nat.mul_assoc]
  · rw [if_neg (by omega)]

/-- C112: the tracers and the savepoints where they lose their halo. -/
theorem C112_tracers (name x : String) :
    (special name ↔ name = "FVDynamics-In" ∨ name = "FVDynamics-Out" ∨ name = "Driver-In" ∨ name = "Driver-Out") ∧
    (tracer x ↔ x = "qvapor" ∨ x = "qliquid" ∨ x = "qice" ∨ x = "qrain" ∨ x = "qsnow" ∨ x = "qgraupel" ∨ x = "qo3mr" ∨ x = "qsgs_tke") := by
  simp [special, tracer]

/-! ### The readers -/

omit [DecidableEq V] in
/-- C112: a loader reads the file with the postfix at the rank of the test and, if asked to, at its call. -/
theorem C112_loader (files : List (String × List (String × Var V))) (rank call : Nat) (name post : String) :
    loader files rank call name post true = load files (name ++ post) rank call := rfl

omit [DecidableEq V] in
/-- If not asked to, it reads the first call in the tests of all. -/
theorem C112_loader_violated (files : List (String × List (String × Var V))) (rank call : Nat) (name post : String) :
    loader files rank call name post false = load files (name ++ post) rank 0 := rfl

/-- C112: a savepoint is said to exist for a rank exactly if the rank has data. -/
theorem C112_exists (v : Values V) (c : Conf) (hm : c.merge = false) (hd : c.dataName = none) (dir : String → Option (List (Point V)))
    (base : String) (n : Nat) (st : Nat → List (Point V)) (names : List String) (shape : String → List Nat)
    (hR : Regular c dir (base ++ "-In") n st names shape)
    (ht : ∀ x ∈ names, special (base ++ "-In") → tracer x → 3 ≤ (axes (shape x)).length)
    (hv : ∃ x ∈ names, x ≠ "rank") (he : (convert v c dir).2 = none) (r : Nat) :
    present (convert v c dir).1 base r = .ok (decide (r < c.ranks)) := by
  obtain ⟨hx, hsh⟩ := export_eq v c hm hd dir _ n st names shape hR ht
  have hs : getSerializer dir c 0 = .ok (st 0) := by
    unfold getSerializer; simp only [hd, hR.opened 0 hR.some_rank, fromOpt]
  obtain ⟨f, hf, he'⟩ := file_of v c dir (st 0) hs he (base ++ "-In") (by
    have c0 := hR.count 0 hR.some_rank
    cases hc : calls (st 0) (base ++ "-In") with
    | nil => rw [hc] at c0; have := hR.some_call; simp at c0; omega
    | cons q _ =>
      have : q ∈ calls (st 0) (base ++ "-In") := by rw [hc]; exact List.mem_cons_self
      obtain ⟨h1, h2⟩ := List.mem_filter.mp this
      exact ⟨q, h1, by simpa using h2⟩)
  rw [hx] at he'
  injection he' with he'
  rw [← he'] at hf
  unfold present
  rw [hf]
  cases hl : names.filter (· ≠ "rank") with
  | nil =>
    obtain ⟨x, hx, hx'⟩ := hv
    have : x ∈ names.filter (· ≠ "rank") := List.mem_filter.mpr ⟨hx, by simpa using hx'⟩
    rw [hl] at this
    cases this
  | cons y ys =>
    simp only [List.map_cons, final_ranks]
    simp [arrays]

/-! ### What does not hold -/

/-- NaN, 1e40 and 0 as numbers 99, 40 and 0. -/
def codes : Values Nat := ⟨99, 40, 0⟩

/-- Two ranks. -/
def two (data : Option String) : Conf := ⟨4, (1, 2), 4, 5, false, data⟩

def line (l : List Nat) : Nd Nat := ⟨[l.length], fun idx => l.getD (idx.headD 0) 77⟩

/-- What is read: names, shapes and values. -/
def seen (files : List (String × List (String × Var Nat)) × Option Err) (name : String) (r i : Nat) :
    Except Err (List (String × List Nat × List Nat)) :=
  (load files.1 name r i).map fun l => l.map fun x => (x.1, x.2.shape, match x.2.shape with | [] => [x.2.get []] | _ => listOf x.2)

def ranks2 (a b : List (Point Nat)) : String → Option (List (Point Nat)) := fun s =>
  if s = "Generator_rank0" then some a else if s = "Generator_rank1" then some b else none

/-- With a name for the data all ranks get the same stream. -/
theorem C112_name_violated (dir : String → Option (List (Point V))) (c : Conf) (name : String) (h : c.dataName = some name) (hn : name ≠ "")
    (r r' : Nat) : getSerializer dir c r = getSerializer dir c r' := by
  unfold getSerializer
  rw [h]
  simp [hn]

/-- Fields that rank 0 lacks at its first call are lost, and so is a field called `rank`. -/
theorem C112_fields_violated :
    seen (convert codes (two none) (ranks2 [⟨"A-In", [("u", line [1, 2]), ("rank", line [0, 0])]⟩]
      [⟨"A-In", [("u", line [3, 4]), ("w", line [5, 6]), ("rank", line [1, 1])]⟩])) "A-In" 1 0 = .ok [("u", [2], [3, 4])] := by
  decide +kernel

/-- Calls beyond those of the last rank are lost. -/
theorem C112_calls_violated :
    let d := ranks2 [⟨"A-In", [("u", line [1, 2])]⟩, ⟨"A-In", [("u", line [3, 4])]⟩] [⟨"A-In", [("u", line [5, 6])]⟩]
    (convert codes (two none) d).2 = none ∧ seen (convert codes (two none) d) "A-In" 0 0 = .ok [("u", [2], [1, 2])] ∧
    seen (convert codes (two none) d) "A-In" 0 1 = .error .indexError := by
  decide +kernel

/-- A single element at a later call is repeated where the first call had an array. -/
theorem C112_shape_violated :
    let d := ranks2 [⟨"A-In", [("u", line [1, 2])]⟩, ⟨"A-In", [("u", line [3])]⟩] [⟨"A-In", [("u", line [5, 6])]⟩, ⟨"A-In", [("u", line [7, 8])]⟩]
    seen (convert codes (two none) d) "A-In" 0 1 = .ok [("u", [2], [3, 3])] := by
  decide +kernel

/-- The fill value is kept in a single element. -/
theorem C112_fill_violated :
    let d := ranks2 [⟨"A-In", [("u", line [40])]⟩] [⟨"A-In", [("u", line [40])]⟩]
    seen (convert codes (two none) d) "A-In" 0 0 = .ok [("u", [], [40])] := by
  decide +kernel

/-- A scalar that a rank lacks ends the conversion. -/
theorem C112_scalar_violated :
    (convert codes (two none) (ranks2 [⟨"A-In", [("u", line [1])]⟩] [⟨"A-In", []⟩])).2 = some .typeError := by
  decide +kernel

/-! ### Examples -/

example :
    let d := ranks2 [⟨"A-In", [("u", line [1, 40]), ("x", line [9])]⟩, ⟨"A-In", [("u", line [3, 4]), ("x", line [8])]⟩]
      [⟨"A-In", [("u", line [5, 6]), ("x", line [7])]⟩, ⟨"A-In", [("u", line [7, 8]), ("x", line [6])]⟩]
    seen (convert codes (two none) d) "A-In" 0 0 = .ok [("u", [2], [1, 0]), ("x", [], [9])] ∧
    seen (convert codes (two none) d) "A-In" 1 1 = .ok [("u", [2], [7, 8]), ("x", [], [6])] := by
  decide +kernel

/-- Regular streams: two ranks, one of which lacks a field. -/
example : Regular (two none) (ranks2 [⟨"A-In", [("u", line [1, 2])]⟩] [⟨"A-In", []⟩]) "A-In" 1
    (fun r => if r = 0 then [⟨"A-In", [("u", line [1, 2])]⟩] else [⟨"A-In", []⟩]) ["u"] (fun _ => [2]) where
  opened := by
    intro r hr
    have : r = 0 ∨ r = 1 := by simp [two, Conf.ranks] at hr; omega
    rcases this with e | e <;> subst e <;> rfl
  some_rank := by decide
  count := by
    intro r hr
    have : r = 0 ∨ r = 1 := by simp [two, Conf.ranks] at hr; omega
    rcases this with e | e <;> subst e <;> simp [calls]
  some_call := by decide
  first := by intro p hp; simp [calls] at hp; subst hp; rfl
  axis := by simp
  fields := by
    intro r hr x hx
    have : r = 0 ∨ r = 1 := by simp [two, Conf.ranks] at hr; omega
    simp only [List.mem_singleton] at hx
    subst hx
    rcases this with e | e <;> subst e
    · left
      intro p hp
      simp [calls] at hp
      subst hp
      exact ⟨_, rfl, rfl⟩
    · right
      refine ⟨rfl, by decide, by decide, ?_⟩
      intro p hp
      simp [calls] at hp
      subst hp
      rfl

example : seen (convert codes (two none) (ranks2 [⟨"A-In", [("u", line [1, 2])]⟩] [⟨"A-In", []⟩])) "A-In" 1 0 = .ok [("u", [2], [99, 99])] := by
  decide +kernel

/-- Blocks: three of two points each make a part of three by two cells. -/
example :
    let d : String → Option (List (Point Nat)) := ranks2
      [⟨"P-In", [("u", line [1, 2])]⟩, ⟨"P-In", [("u", line [3, 4])]⟩, ⟨"P-In", [("u", line [5, 6])]⟩]
      [⟨"P-In", [("u", line [7, 8])]⟩, ⟨"P-In", [("u", line [9, 10])]⟩, ⟨"P-In", [("u", line [11, 12])]⟩]
    (load (convert codes { two none with merge := true } d).1 "P-In" 1 0).map (fun l => l.map fun x =>
      (x.1, x.2.shape, [x.2.get [0, 0], x.2.get [0, 1], x.2.get [1, 0], x.2.get [2, 1]])) = .ok [("u", [3, 2], [7, 8, 9, 12])] := by
  decide +kernel

/-- Different sizes on the ranks. -/
example : seen (convert codes (two none) (ranks2 [⟨"A-In", [("u", line [1, 2])]⟩] [⟨"A-In", [("u", line [3, 4, 5])]⟩])) "A-In" 0 0 =
    .ok [("u", [5], [1, 2, 3, 4, 5])] := by
  decide +kernel

/-- The same with two calls, and beside a variable of one size. -/
example : (convert codes (two none) (ranks2 [⟨"A-In", [("u", line [1, 2])]⟩, ⟨"A-In", [("u", line [1, 2])]⟩]
      [⟨"A-In", [("u", line [3, 4, 5])]⟩, ⟨"A-In", [("u", line [3, 4, 5])]⟩])).2 = some .valueError ∧
    (convert codes (two none) (ranks2 [⟨"A-In", [("u", line [1, 2]), ("w", line [0, 1])]⟩]
      [⟨"A-In", [("u", line [3, 4, 5]), ("w", line [2, 3])]⟩])).2 = some .valueError := by
  decide +kernel

end NDSL.Serial
