import Verif.Spec.BuildInfo
import Verif.Props.Backend
import Verif.Lemmas.NetCDF
import Mathlib.Tactic.Ring
import Mathlib.Tactic.Linarith
/-
C91: the check of the build information, and configurations as dictionaries.
-/
namespace NDSL.BuildInfo

open NDSL.Backend

/-! ### Text -/

theorem split_cons (sep : Char) (a b : List Char) (h : sep ∉ a) :
    split sep (a ++ sep :: b) = a :: split sep b := by
  induction a with
  | nil => simp [split]
  | cons c a ih =>
    simp only [List.mem_cons, not_or] at h
    have := ih h.2
    simp only [List.cons_append, split, this]
    rw [if_neg (fun e => h.1 e.symm)]

theorem numbers_digits : ∀ (ds rest : List Char) (cur : Nat), (∀ c ∈ ds, c.isDigit = true) →
    numbers (some cur) (ds ++ rest) = numbers (some (Nat.ofDigitChars 10 ds cur)) rest := by
  intro ds
  induction ds with
  | nil => intro rest cur _; rfl
  | cons c ds ih =>
    intro rest cur h
    simp only [List.cons_append, numbers, h c (by simp), if_true, Option.getD_some]
    rw [ih _ _ (fun x hx => h x (by simp [hx]))]
    rfl

theorem numbers_number (n : Nat) (rest : List Char) :
    numbers none (Nat.toDigits 10 n ++ rest) = numbers (some n) rest := by
  have hd : ∀ c ∈ Nat.toDigits 10 n, c.isDigit = true := fun c hc => NetCDF.digits_isDigit hc
  have hv := NetCDF.digits_value n
  cases hds : Nat.toDigits 10 n with
  | nil => rw [hds] at hv; exact absurd hds (by
      have : Nat.toDigits 10 n ≠ [] := Nat.toDigits_ne_nil
      exact this)
  | cons c ds =>
    rw [hds] at hd hv
    simp only [List.cons_append, numbers, hd c (by simp), if_true, Option.getD_none]
    rw [numbers_digits ds rest _ (fun x hx => hd x (by simp [hx]))]
    have : Nat.ofDigitChars 10 ds (10 * 0 + (c.toNat - '0'.toNat)) = n := by rw [← hv]; rfl
    rw [this]

theorem numbers_comma (n : Nat) (cs : List Char) :
    numbers (some n) (',' :: ' ' :: cs) = n :: numbers none cs := by
  simp [numbers, Char.isDigit]

theorem numbers_layout (a b : Nat) : numbers none (showSeq '(' ')' [a, b]) = [a, b] := by
  have e : showSeq '(' ')' [a, b] = '(' :: (Nat.toDigits 10 a ++ ',' :: ' ' ::
      (Nat.toDigits 10 b ++ [')'])) := by
    simp [showSeq, List.intercalate, List.intersperse]
  rw [e]
  have : numbers none ('(' :: (Nat.toDigits 10 a ++ ',' :: ' ' :: (Nat.toDigits 10 b ++ [')'])))
      = numbers none (Nat.toDigits 10 a ++ ',' :: ' ' :: (Nat.toDigits 10 b ++ [')'])) := by
    simp [numbers, Char.isDigit]
  rw [this, numbers_number, numbers_comma, numbers_number]
  simp [numbers, Char.isDigit]

theorem numbers_resolution (a b c : Nat) : numbers none (showSeq '[' ']' [a, b, c]) = [a, b, c] := by
  have e : showSeq '[' ']' [a, b, c] = '[' :: (Nat.toDigits 10 a ++ ',' :: ' ' ::
      (Nat.toDigits 10 b ++ ',' :: ' ' :: (Nat.toDigits 10 c ++ [']']))) := by
    simp [showSeq, List.intercalate, List.intersperse]
  rw [e]
  have : ∀ cs, numbers none ('[' :: cs) = numbers none cs := by intro cs; simp [numbers, Char.isDigit]
  rw [this, numbers_number, numbers_comma, numbers_number, numbers_comma, numbers_number]
  simp [numbers, Char.isDigit]

theorem digits_no_newline (n : Nat) : '\n' ∉ Nat.toDigits 10 n := by
  intro h
  have := NetCDF.digits_isDigit h
  revert this; decide

theorem layout_no_newline (a b : Nat) : '\n' ∉ showSeq '(' ')' [a, b] := by
  have h1 := digits_no_newline a
  have h2 := digits_no_newline b
  simp [showSeq, List.intercalate, List.intersperse, h1, h2]

theorem resolution_no_newline (a b c : Nat) : '\n' ∉ showSeq '[' ']' [a, b, c] := by
  have h1 := digits_no_newline a
  have h2 := digits_no_newline b
  have h3 := digits_no_newline c
  simp [showSeq, List.intercalate, List.intersperse, h1, h2, h3]

theorem name_no_newline (registry : List Char → Option Bool) (c : Config) (h : Made registry c) :
    '\n' ∉ c.backend.name := by
  rcases C46_decodes registry c.backend.name with e | ⟨b, g, o, h1, h2, -⟩
  · unfold Made at h; rw [h] at e; cases e
  · have : ∀ e ∈ naming, '\n' ∉ e.1 := by decide
    exact this _ h2

/-- What is read is what was written. -/
theorem read_written (registry : List Char → Option Bool) (b : Config) (h : Made registry b) :
    ∃ l r, split '\n' (writeInfo b) = [chars! "#Schema: Backend Layout Resolution per tile",
      b.backend.name, l, r, []] ∧ numbers none l = [b.layout.1, b.layout.2] ∧
      numbers none r = [b.nx, b.nx, b.nz] := by
  refine ⟨showSeq '(' ')' [b.layout.1, b.layout.2], showSeq '[' ']' b.resolution, ?_,
    numbers_layout _ _, numbers_resolution _ _ _⟩
  unfold writeInfo
  rw [split_cons '\n' _ _ (by decide), split_cons '\n' _ _ (name_no_newline registry b h),
    split_cons '\n' _ _ (layout_no_newline _ _)]
  have := split_cons '\n' (showSeq '[' ']' b.resolution) [] (resolution_no_newline _ _ _)
  rw [this]
  rfl

/-! ### The check -/

/-- **C91**: a library built with configuration `b` is found again with configuration `c` exactly
when the mode asks for it, the backends are the same, and the quotient of tile size and number of
rows of ranks is; else the call fails with a RuntimeError. -/
theorem C91_check (registry : List Char → Option Bool) (b c : Config) (fs : Folder) (name : Nat)
    (hb : Made registry b) (hc : Made registry c) (hcp : c.codePath = b.codePath)
    (hfs : Built fs b name) (override : Bool) (hm : override = true ∨ c.mode = .run) :
    getSdfgPath registry c fs name override =
      if c.backend = b.backend ∧ c.nx * b.layout.1 = b.nx * c.layout.1
      then .ok (some (b.codePath, name)) else .error .runtimeError := by
  unfold getSdfgPath
  rw [if_neg (by rintro ⟨h1, h2⟩; rcases hm with h | h <;> simp_all), hcp]
  unfold Built at hfs
  rw [hfs]
  obtain ⟨l, r, h1, h2, h3⟩ := read_written registry b hb
  simp only [h1]
  have hmk : mk registry b.backend.name = .ok b.backend := hb
  simp only [hmk, h2, h3, sameFirst]
  by_cases hbe : c.backend = b.backend
  · have : beq c.backend b.backend = true := by rw [hbe]; simp [beq]
    rw [if_neg (by simp [this])]
    by_cases hr : c.nx * b.layout.1 = b.nx * c.layout.1
    · rw [if_pos (by simpa using hr), if_pos ⟨hbe, hr⟩]
    · rw [if_neg (by simpa using hr), if_neg (fun h => hr h.2)]
  · have : beq c.backend b.backend ≠ true := by
      intro h
      apply hbe
      have hn : c.backend.name = b.backend.name := by simpa [beq] using h
      have e1 : mk registry c.backend.name = .ok c.backend := hc
      rw [hn, hmk] at e1
      exact (Except.ok.inj e1).symm
    rw [if_pos (by simpa using this), if_neg (fun h => hbe h.1)]

/-- **C91** (square layouts): for layouts with as many rows as columns, and the same number of
levels, a library is used exactly if it was built for the same backend and for domains of the same
size. -/
theorem C91_square (registry : List Char → Option Bool) (b c : Config) (fs : Folder) (name : Nat)
    (hb : Made registry b) (hc : Made registry c) (hcp : c.codePath = b.codePath)
    (hfs : Built fs b name) (hm : c.mode = .run) (hsb : b.layout.1 = b.layout.2)
    (hsc : c.layout.1 = c.layout.2) (hz : c.nz = b.nz) :
    getSdfgPath registry c fs name false = .ok (some (b.codePath, name)) ↔
      c.backend = b.backend ∧ SameDomain c b := by
  rw [C91_check registry b c fs name hb hc hcp hfs false (.inr hm)]
  constructor
  · intro h
    split at h
    · rename_i h'
      exact ⟨h'.1, h'.2, by rw [← hsb, ← hsc]; exact h'.2, hz⟩
    · cases h
  · rintro ⟨h1, h2, -, -⟩
    rw [if_pos ⟨h1, h2⟩]

/-- **C91** (missing or not asked for): without a folder for the program the call fails; outside run
mode no library is looked for. -/
theorem C91_missing (registry : List Char → Option Bool) (c : Config) (fs : Folder) (name : Nat) :
    (c.mode = .run → fs c.codePath name = none →
      getSdfgPath registry c fs name false = .error .runtimeError) ∧
    (c.mode ≠ .run → getSdfgPath registry c fs name false = .ok none) := by
  constructor
  · intro h1 h2
    unfold getSdfgPath
    rw [if_neg (by simp [h1]), h2]
  · intro h
    unfold getSdfgPath
    rw [if_pos ⟨rfl, h⟩]

/-- All backends are registered. -/
def everything : List Char → Option Bool := fun _ => some true

/-- The default backend for CPUs. -/
def cpu : Backend := ⟨chars! "orch:dace:cpu:IJK", .orchestration, .dace, .cpu, .ijk⟩

def config (layout : Nat × Nat) (nx nz : Nat) : Config :=
  ⟨.run, cpu, 0, 6, layout, nx, nz, .bottomLeft, true, false⟩

theorem config_made (layout : Nat × Nat) (nx nz : Nat) : Made everything (config layout nx nz) := by
  show mk everything cpu.name = .ok cpu
  decide +kernel

/-- **C91** (levels): the number of levels is not compared: a library built for 79 levels is used for
91. -/
theorem C91_levels_violated (fs : Folder) (name : Nat)
    (hfs : Built fs (config (2, 2) 48 79) name) :
    getSdfgPath everything (config (2, 2) 48 91) fs name false = .ok (some (.bottomLeft, name)) ∧
      ¬ SameDomain (config (2, 2) 48 91) (config (2, 2) 48 79) := by
  constructor
  · rw [C91_check everything (config (2, 2) 48 79) (config (2, 2) 48 91) fs name (config_made _ _ _) (config_made _ _ _) rfl hfs false
      (.inr rfl), if_pos ⟨rfl, rfl⟩]
    rfl
  · rintro ⟨-, -, h⟩; revert h; decide

/-- **C91** (columns): nor is the number of columns of ranks. -/
theorem C91_columns_violated (fs : Folder) (name : Nat)
    (hfs : Built fs (config (2, 2) 48 79) name) :
    getSdfgPath everything (config (2, 4) 48 79) fs name false = .ok (some (.bottomLeft, name)) ∧
      ¬ SameDomain (config (2, 4) 48 79) (config (2, 2) 48 79) := by
  constructor
  · rw [C91_check everything (config (2, 2) 48 79) (config (2, 4) 48 79) fs name (config_made _ _ _) (config_made _ _ _) rfl hfs false
      (.inr rfl), if_pos ⟨rfl, rfl⟩]
    rfl
  · rintro ⟨-, h, -⟩; revert h; decide

/-- **C91** (default size): with the default tile size, zero, every layout is accepted. -/
theorem C91_default_violated (fs : Folder) (name : Nat) (l l' : Nat × Nat)
    (hfs : Built fs (config l 0 0) name) :
    getSdfgPath everything (config l' 0 0) fs name false = .ok (some (.bottomLeft, name)) := by
  rw [C91_check everything (config l 0 0) (config l' 0 0) fs name (config_made _ _ _) (config_made _ _ _) rfl hfs false
    (.inr rfl), if_pos ⟨rfl, by simp [config]⟩]
  rfl

/-- A case for `C91_square`: built on three by three ranks, run on six by six with twice the
resolution. -/
example : (config (6, 6) 96 79).layout.1 = (config (6, 6) 96 79).layout.2 ∧
    SameDomain (config (6, 6) 96 79) (config (3, 3) 48 79) ∧
    ¬ SameDomain (config (6, 6) 48 79) (config (3, 3) 48 79) ∧
    (config (6, 6) 96 79).mode = .run :=
  ⟨rfl, ⟨by decide, by decide, by decide⟩, by rintro ⟨h, -⟩; revert h; decide, rfl⟩

example : writeInfo (config (3, 3) 48 79) =
    chars! "#Schema: Backend Layout Resolution per tile\norch:dace:cpu:IJK\n(3, 3)\n[48, 48, 79]\n" := by
  decide +kernel

/-! ### Dictionaries -/

/-- **C91** (dictionary): a configuration rebuilt from its dictionary has the same mode, backend,
rank, number of ranks, layout and resolution, hence makes the same decision about libraries of the
common code path. -/
theorem C91_dict (registry : List Char → Option Bool) (c : Config) (h : Made registry c) :
    ∃ c', fromDict registry (asDict c) = .ok c' ∧ c'.mode = c.mode ∧ c'.backend = c.backend ∧
      c'.rank = c.rank ∧ c'.size = c.size ∧ c'.layout = c.layout ∧ c'.resolution = c.resolution ∧
      asDict c' = asDict c := by
  have hm : modeOf (modeName c.mode) = .ok c.mode := by cases c.mode <;> decide
  have hb : mk registry c.backend.name = .ok c.backend := h
  refine ⟨⟨c.mode, c.backend, c.rank, c.size, c.layout, c.nx, c.nz, .all, true, false⟩, ?_, rfl, rfl,
    rfl, rfl, rfl, rfl, rfl⟩
  simp only [fromDict, asDict, hb, hm, Config.resolution]

/-- **C91** (dictionary, lost): the code path and whether the rank compiles are not in the dictionary:
every rank gets the code path of a single rank and compiles. -/
theorem C91_dict_violated (registry : List Char → Option Bool) (c : Config) (h : Made registry c) :
    ∃ c', fromDict registry (asDict c) = .ok c' ∧ c'.codePath = .all ∧ c'.doCompile = true := by
  have hm : modeOf (modeName c.mode) = .ok c.mode := by cases c.mode <;> decide
  have hb : mk registry c.backend.name = .ok c.backend := h
  refine ⟨⟨c.mode, c.backend, c.rank, c.size, c.layout, c.nx, c.nz, .all, true, false⟩, ?_, rfl, rfl⟩
  simp only [fromDict, asDict, hb, hm, Config.resolution]

end NDSL.BuildInfo
