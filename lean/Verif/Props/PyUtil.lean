import Verif.Props.Util

/-! C64 (`InlinePool`) and C65 (`inherit_doc`). -/

namespace Verif

/-! ### C64 -/

theorem runChunk_ok {α β : Type} {f : α → Except PyErr β} : ∀ {l : List α} {r : List β},
    runChunk f l = .ok r ↔ List.Forall₂ (fun x y => f x = .ok y) l r
  | [], r => by
    simp only [runChunk, Except.ok.injEq, List.forall₂_nil_left_iff]; exact eq_comm
  | x :: l, r => by
    simp only [runChunk, bind_ok, pure_ok, List.forall₂_cons_left_iff]
    constructor
    · rintro ⟨y, hy, ys, hys, rfl⟩; exact ⟨y, ys, hy, runChunk_ok.1 hys, rfl⟩
    · rintro ⟨y, ys, hy, hys, rfl⟩; exact ⟨y, hy, ys, runChunk_ok.2 hys, rfl⟩

theorem runChunk_error {α β : Type} {f : α → Except PyErr β} : ∀ {l : List α} {e : PyErr},
    runChunk f l = .error e → ∃ x ∈ l, f x = .error e
  | [], e, h => by cases h
  | x :: l, e, h => by
    simp only [runChunk] at h
    cases hx : f x with
    | error e' =>
      rw [hx] at h
      cases h; exact ⟨x, by simp, hx⟩
    | ok y =>
      rw [hx] at h
      cases hl : runChunk f l with
      | error e' =>
        rw [hl] at h; cases h
        obtain ⟨z, hz, hz'⟩ := runChunk_error hl
        exact ⟨z, by simp [hz], hz'⟩
      | ok ys => rw [hl] at h; cases h

/-- invariant of the result slots: after the chunks in `done` have arrived without failure, exactly their
positions are filled, with the right values -/
theorem pool_inv {α β : Type} {f : α → Except PyErr β} {g : α → β} (ls : List α) {size : ℕ} (hs : 0 < size)
    (hf : ∀ x ∈ ls, f x = .ok (g x)) : ∀ (sched : List ℕ), (∀ i ∈ sched, i < nchunks ls.length size) →
    ∀ (slots : List (Option β)), slots.length = ls.length →
    ∃ out, sched.foldl (fun s i => mapSet size s i (runChunk f ((chunksL ls size).getD i []))) (.ok slots) = .ok out ∧
      out.length = ls.length ∧
      ∀ k, (hk : k < ls.length) → out.getD k none = if k / size ∈ sched then some (g ls[k]) else slots.getD k none
  | [], _, slots, hl => ⟨slots, rfl, hl, fun k hk => by simp⟩
  | i :: sched, hi, slots, hl => by
    have hin := hi i (by simp)
    have hchunk : (chunksL ls size).getD i [] = slice ls (i * size) (i * size + size) := by
      unfold chunksL
      exact vmk_getD_lt (f := fun k => slice ls (k * size) (k * size + size)) hin
    have hin' : i * size < ls.length := by
      unfold nchunks at hin
      have := Nat.div_mul_le_self (ls.length + size - 1) size
      have h2 : (i + 1) * size ≤ (ls.length + size - 1) / size * size := Nat.mul_le_mul_right _ hin
      have : (i + 1) * size = i * size + size := by ring
      omega
    set c := slice ls (i * size) (i * size + size) with hc
    have hcl : c.length = min size (ls.length - i * size) := by simp [hc, slice]
    have hrun : runChunk f c = .ok (c.map g) := by
      rw [runChunk_ok, List.forall₂_map_right_iff, List.forall₂_same]
      intro x hx
      refine hf x ?_
      exact List.mem_of_mem_drop (List.mem_of_mem_take hx)
    simp only [List.foldl_cons, hchunk, hrun, mapSet]
    have hfit : i * size + ((c.map g).map some).length ≤ slots.length := by
      simp [hcl, hl]; omega
    obtain ⟨out, ho1, ho2, ho3⟩ := pool_inv ls hs hf sched (fun j hj => hi j (by simp [hj]))
      (setSlice slots (i * size) ((c.map g).map some)) (by rw [setSlice_length hfit, hl])
    refine ⟨out, ho1, ho2, fun k hk => ?_⟩
    rw [ho3 k hk]
    by_cases hm : k / size ∈ sched
    · simp [hm]
    · simp only [hm, if_false, List.mem_cons, or_false]
      rw [setSlice_getD hfit]
      have hlen : ((c.map g).map some).length = min size (ls.length - i * size) := by simp [hcl]
      rw [hlen]
      have hdm := Nat.div_add_mod k size
      have hml := Nat.mod_lt k hs
      by_cases hki : k / size = i
      · rw [if_pos hki, if_pos]
        · have hlt : k - i * size < c.length := by
            rw [hcl, lt_min_iff]
            rw [← hki, mul_comm]
            constructor <;> omega
          have hin3 : i * size ≤ k := by rw [← hki, mul_comm]; omega
          rw [getD_getElem _ (by simpa using hlt)]
          simp only [List.getElem_map, Option.some.injEq]
          congr 1
          simp only [hc, slice, List.getElem_take, List.getElem_drop]
          congr 1
          omega
        · rw [← hki, mul_comm]
          constructor
          · omega
          · rw [lt_iff_not_ge]; intro h
            rcases min_cases size (ls.length - size * (k / size)) with h' | h' <;> omega
      · rw [if_neg hki, if_neg]
        rintro ⟨h1, h2⟩
        apply hki
        have h3 : k < i * size + size := lt_of_lt_of_le h2 (by simp)
        refine Nat.div_eq_of_lt_le h1 ?_
        rw [add_mul, one_mul]; exact h3

theorem pool_error {α β : Type} {f : α → Except PyErr β} (ls : List α) {size : ℕ} :
    ∀ (sched : List ℕ) (e : PyErr),
    ∀ (s : MapState β), sched.foldl (fun s i => mapSet size s i (runChunk f ((chunksL ls size).getD i []))) s = .error e →
    s = .error e ∨ ∃ x ∈ ls, f x = .error e
  | [], e, s, h => Or.inl h
  | i :: sched, e, s, h => by
    rw [List.foldl_cons] at h
    rcases pool_error ls sched e _ h with h' | h'
    · cases s with
      | error e' => left; simpa [mapSet] using h'
      | ok slots =>
        right
        cases hr : runChunk f ((chunksL ls size).getD i []) with
        | ok ys => rw [hr] at h'; cases h'
        | error e' =>
          rw [hr] at h'
          simp only [mapSet, Except.error.injEq] at h'
          subst h'
          obtain ⟨x, hx, hx'⟩ := runChunk_error hr
          refine ⟨x, ?_, hx'⟩
          by_cases hi : i < (chunksL ls size).length
          · rw [getD_getElem _ hi] at hx
            unfold chunksL at hx
            simp only [List.getElem_map, slice] at hx
            exact List.mem_of_mem_drop (List.mem_of_mem_take hx)
          · rw [getD_ge (by omega)] at hx; cases hx
    · exact Or.inr h'

theorem pool_fails {α β : Type} {f : α → Except PyErr β} (ls : List α) {size : ℕ}
    {i : ℕ} {e : PyErr} (hi : runChunk f ((chunksL ls size).getD i []) = .error e) : ∀ (sched : List ℕ) (s : MapState β),
    (i ∈ sched ∨ ∃ e', s = .error e') →
    ∃ e', sched.foldl (fun s i => mapSet size s i (runChunk f ((chunksL ls size).getD i []))) s = .error e'
  | [], s, h => by simpa using h
  | j :: sched, s, h => by
    rw [List.foldl_cons]
    apply pool_fails ls hi sched
    cases s with
    | error e' => exact Or.inr ⟨e', rfl⟩
    | ok slots =>
      rcases h with h | ⟨_, h⟩
      · rcases List.mem_cons.1 h with h | h
        · subst h; right; rw [hi]; exact ⟨e, rfl⟩
        · exact Or.inl h
      · cases h

/-- C64: when no call raises, `starmap` returns `f` of every argument tuple in order: without a pool, and with a
pool of any chunk size whose workers finish their chunks in any order. -/
theorem C64_starmap {α β : Type} (f : α → Except PyErr β) (g : α → β) (ls : List α) (hf : ∀ x ∈ ls, f x = .ok (g x)) :
    inlineStarmap .none f ls = .ok (ls.map fun x => some (g x)) ∧
    ∀ size schedule, 0 < size → schedule.Perm (List.range (nchunks ls.length size)) →
      inlineStarmap (.pool size schedule) f ls = .ok (ls.map fun x => some (g x)) := by
  constructor
  · have : runChunk f ls = .ok (ls.map g) := by
      rw [runChunk_ok, List.forall₂_map_right_iff, List.forall₂_same]; exact hf
    simp [inlineStarmap, this, Except.map]
  · intro size schedule hs hp
    simp only [inlineStarmap, poolStarmap]
    obtain ⟨out, h1, h2, h3⟩ := pool_inv ls hs hf schedule (fun i hi => List.mem_range.1 (hp.mem_iff.1 hi))
      (ls.map fun _ => none) (by simp)
    rw [h1]
    congr 1
    refine list_ext_getD none (by simp [h2]) fun k hk => ?_
    rw [h2] at hk
    have hm : k / size ∈ schedule := by
      rw [hp.mem_iff, List.mem_range]
      unfold nchunks
      rw [Nat.div_lt_iff_lt_mul hs]
      have := Nat.div_add_mod (ls.length + size - 1) size
      have := Nat.mod_lt (ls.length + size - 1) hs
      rw [mul_comm]; omega
    rw [h3 k hk, if_pos hm, getD_getElem _ (by simpa using hk), List.getElem_map]

/-- C64, failures: `starmap` raises exactly when some call raises, with or without a pool and for every completion
order, and what it raises is one of the exceptions raised by the calls. -/
theorem C64_starmap_raises {α β : Type} (f : α → Except PyErr β) (ls : List α) (p : PoolArg)
    (hp : ∀ size schedule, p = .pool size schedule → 0 < size ∧ schedule.Perm (List.range (nchunks ls.length size))) :
    ((∃ e, inlineStarmap p f ls = .error e) ↔ ∃ x ∈ ls, ∃ e, f x = .error e) ∧
    ∀ e, inlineStarmap p f ls = .error e → ∃ x ∈ ls, f x = .error e := by
  have h2 : ∀ e, inlineStarmap p f ls = .error e → ∃ x ∈ ls, f x = .error e := by
    intro e he
    cases p with
    | none =>
      simp only [inlineStarmap] at he
      cases hr : runChunk f ls with
      | ok r => rw [hr] at he; cases he
      | error e' =>
        rw [hr] at he
        simp only [Except.map, Except.error.injEq] at he
        subst he; exact runChunk_error hr
    | pool size schedule =>
      rcases pool_error ls schedule e _ he with h | h
      · cases h
      · exact h
  refine ⟨⟨fun ⟨e, he⟩ => ?_, fun ⟨x, hx, e, he⟩ => ?_⟩, h2⟩
  · obtain ⟨x, hx, h⟩ := h2 e he; exact ⟨x, hx, e, h⟩
  · by_contra hno
    cases p with
    | none =>
      simp only [inlineStarmap] at hno
      cases hr : runChunk f ls with
      | error e' => rw [hr] at hno; exact hno ⟨e', rfl⟩
      | ok r =>
        have := runChunk_ok.1 hr
        obtain ⟨y, -, hy⟩ := forall₂_mem this hx
        rw [he] at hy; cases hy
    | pool size schedule =>
      obtain ⟨hs, hperm⟩ := hp size schedule rfl
      obtain ⟨k, hk, rfl⟩ := List.getElem_of_mem hx
      -- the chunk of `k` fails
      have hm : k / size < nchunks ls.length size := by
        unfold nchunks
        rw [Nat.div_lt_iff_lt_mul hs]
        have := Nat.div_add_mod (ls.length + size - 1) size
        have := Nat.mod_lt (ls.length + size - 1) hs
        rw [mul_comm]; omega
      have hchunk : (chunksL ls size).getD (k / size) [] = slice ls (k / size * size) (k / size * size + size) := by
        unfold chunksL
        exact vmk_getD_lt (f := fun k => slice ls (k * size) (k * size + size)) hm
      have hmem : ls[k] ∈ slice ls (k / size * size) (k / size * size + size) := by
        have hdm := Nat.div_add_mod k size
        have hml := Nat.mod_lt k hs
        rw [mul_comm] at hdm
        rw [List.mem_iff_getElem]
        refine ⟨k % size, by simp [slice]; omega, ?_⟩
        simp only [slice, List.getElem_take, List.getElem_drop]
        congr 1
      cases hr : runChunk f ((chunksL ls size).getD (k / size) []) with
      | ok r =>
        have := runChunk_ok.1 hr
        rw [hchunk] at this
        obtain ⟨y, -, hy⟩ := forall₂_mem this hmem
        rw [he] at hy; cases hy
      | error e' =>
        exact hno (pool_fails ls hr schedule _ (Or.inl (hperm.mem_iff.2 (List.mem_range.2 hm))))

/-- five tasks, chunk size two, chunks finishing in the order 2, 0, 1 -/
example : inlineStarmap (.pool 2 [2, 0, 1]) (fun n : ℕ => .ok (n * n)) [1, 2, 3, 4, 5] =
    .ok [some 1, some 4, some 9, some 16, some 25] := rfl

/-! ### C65 -/

/-- the documentation that belongs to an attribute that is not false (nothing to a false one): that of the function, the one given to the property, or that of the object -/
def attrDoc (h : DocHeap) : Attr → String
  | .func i => h i
  | .prop _ d => d
  | .other t d => if t then d else ""

/-- the docstring of the first base (in order) whose attribute `name` is documented -/
def firstBaseDoc (h : DocHeap) (name : String) (bases : List (String → Option Attr)) : Option String :=
  ((bases.filterMap fun p => p name).map (attrDoc h)).find? fun d => d != ""

theorem attrDoc_eq (h : DocHeap) (a : Attr) : attrDoc h a = if a.truthy then a.docOf h else "" := by
  cases a with
  | other t d => cases t <;> rfl
  | _ => rfl

theorem findFuncDoc_eq (h : DocHeap) (name : String) : ∀ bases, findFuncDoc h name bases = firstBaseDoc h name bases
  | [] => rfl
  | p :: ps => by
    unfold findFuncDoc firstBaseDoc
    cases hp : p name with
    | none =>
      simp only [List.filterMap_cons, hp]; exact findFuncDoc_eq h name ps
    | some a =>
      simp only [List.filterMap_cons, hp, List.map_cons, List.find?_cons, attrDoc_eq]
      by_cases hc : a.truthy = true ∧ a.docOf h ≠ ""
      · rw [if_pos hc, if_pos hc.1]
        have : (a.docOf h != "") = true := by simp [hc.2]
        rw [this]
      · rw [if_neg hc]
        have : ((if a.truthy = true then a.docOf h else "") != "") = false := by
          by_cases ht : a.truthy = true
          · have : a.docOf h = "" := by by_contra hne; exact hc ⟨ht, hne⟩
            simp [this]
          · simp [ht]
        rw [this]
        exact findFuncDoc_eq h name ps

theorem firstBaseDoc_ne {h : DocHeap} {name : String} {bases : List (String → Option Attr)} {d : String}
    (hd : firstBaseDoc h name bases = some d) : d ≠ "" := by
  unfold firstBaseDoc at hd
  have := List.find?_some hd
  simpa using this

/-- no base sees a function that belongs to the class itself -/
def basesAvoid (ids : List ℕ) (bases : List (String → Option Attr)) : Prop :=
  ∀ p ∈ bases, ∀ n, (∀ i, p n = some (.func i) → i ∉ ids) ∧ ∀ g d, p n = some (.prop g d) → g ∉ ids

/-- function objects held by the class dictionary -/
def ownFuncs (vars : List (String × Attr)) : List ℕ :=
  vars.filterMap fun v => match v.2 with | .func i => some i | _ => none

theorem firstBaseDoc_congr {h h' : DocHeap} {ids : List ℕ} (hh : ∀ i, i ∉ ids → h' i = h i)
    {bases : List (String → Option Attr)} (hb : basesAvoid ids bases) (name : String) :
    firstBaseDoc h' name bases = firstBaseDoc h name bases := by
  rw [← findFuncDoc_eq, ← findFuncDoc_eq]
  induction bases with
  | nil => rfl
  | cons p ps ih =>
    have ih := ih fun q hq => hb q (by simp [hq])
    unfold findFuncDoc
    cases hp : p name with
    | none => exact ih
    | some a =>
      have : a.docOf h' = a.docOf h := by
        cases a with
        | func i => exact hh i ((hb p (by simp) name).1 i hp)
        | prop g d => rfl
        | other t d => rfl
      simp only [this, ih]

theorem findPropDoc_congr {h h' : DocHeap} {ids : List ℕ} (hh : ∀ i, i ∉ ids → h' i = h i)
    {bases : List (String → Option Attr)} (hb : basesAvoid ids bases) (name : String) :
    findPropDoc h' name bases = findPropDoc h name bases := by
  induction bases with
  | nil => rfl
  | cons p ps ih =>
    have ih := ih fun q hq => hb q (by simp [hq])
    unfold findPropDoc
    cases hp : p name with
    | none => exact ih
    | some a =>
      cases a with
      | func i => simp only [ih]
      | prop g d => simp only [ih, hh g ((hb p (by simp) name).2 g d hp)]
      | other t d => simp only [ih]

/-- the docstring of the getter of the first base (in order) that has a property `name` with a documented getter -/
def firstGetterDoc (h : DocHeap) (name : String) (bases : List (String → Option Attr)) : Option String :=
  (bases.filterMap fun p => match p name with
    | some (.prop g _) => some (h g)
    | _ => none).find? fun d => d != ""

theorem findPropDoc_first (h : DocHeap) (name : String) : ∀ {bases : List (String → Option Attr)} {r : Option String}, findPropDoc h name bases = .ok r →
    r = firstGetterDoc h name bases
  | [], r, e => by cases e; rfl
  | p :: ps, r, e => by
    unfold findPropDoc at e
    unfold firstGetterDoc
    rw [List.filterMap_cons]
    cases hp : p name with
    | none =>
      rw [hp] at e
      exact findPropDoc_first h name e
    | some a =>
      rw [hp] at e
      cases a with
      | func i => simp [Attr.truthy] at e
      | other t d =>
        simp only at e ⊢
        split at e
        · cases e
        · exact findPropDoc_first h name e
      | prop g d =>
        simp only at e ⊢
        rw [List.find?_cons]
        split at e
        · rename_i hne
          cases e
          rw [show (h g != "") = true by simp [hne]]
        · rename_i hne
          have hne : h g = "" := by by_contra hh; exact hne hh
          simp only [hne]
          exact findPropDoc_first h name e

theorem firstGetterDoc_congr {h h' : DocHeap} {ids : List ℕ} (hh : ∀ i, i ∉ ids → h' i = h i)
    {bases : List (String → Option Attr)} (hb : basesAvoid ids bases) (name : String) :
    firstGetterDoc h' name bases = firstGetterDoc h name bases := by
  unfold firstGetterDoc
  congr 1
  refine List.filterMap_congr fun p hp => ?_
  cases he : p name with
  | none => rfl
  | some a =>
    cases a with
    | prop g d => simp only [hh g ((hb p hp name).2 g d he)]
    | _ => rfl

/-- what should be left in one entry of the class dictionary: a property whose getter has no docstring takes that of the first base, everything else is as it was -/
def entryAfter (h : DocHeap) (bases : List (String → Option Attr)) (name : String) : Attr → Attr
  | .prop g d => if h g = "" then
      match firstGetterDoc h name bases with
      | some d' => .prop g d'
      | none => .prop g d
    else .prop g d
  | a => a

theorem entryAfter_prop (h : DocHeap) (bases : List (String → Option Attr)) (n : String) (g : ℕ) (d : String) :
    ∃ d', entryAfter h bases n (.prop g d) = .prop g d' := by
  simp only [entryAfter]
  split
  · split <;> exact ⟨_, rfl⟩
  · exact ⟨_, rfl⟩

/-- an attribute before and after decoration, when the heap was `h`: same kind and same getter; a property whose
getter is documented is unchanged, and so is everything that is not a property -/
def sameEntry (h : DocHeap) : Attr → Attr → Prop
  | .prop g d, a' => (∃ d', a' = .prop g d') ∧ (h g ≠ "" → a' = .prop g d)
  | a, a' => a' = a

/-- C65, effects (unconditional): if `inherit_doc(cls)` returns, every function that had a docstring keeps it, only
functions of the class itself change, and the class keeps its bases and the names, kinds, getters and order of
its attributes. -/
theorem C65_inheritDoc_frame {h h' : DocHeap} {c c' : PyClass} (hr : inheritDoc h c = .ok (h', c')) :
    (∀ i, h i ≠ "" → h' i = h i) ∧ (∀ i, i ∉ ownFuncs c.vars → h' i = h i) ∧
    c'.bases = c.bases ∧ c'.vars.map Prod.fst = c.vars.map Prod.fst ∧
    List.Forall₂ (fun v v' => sameEntry h v.2 v'.2) c.vars c'.vars := by
  unfold inheritDoc at hr
  simp only [bind_ok] at hr
  obtain ⟨⟨h1, vars'⟩, hl, he⟩ := hr
  simp only [Except.ok.injEq, Prod.mk.injEq] at he
  obtain ⟨rfl, rfl⟩ := he
  simp only [true_and]
  have : ∀ (vars vars' : List (String × Attr)) (h h1 : DocHeap), inheritLoop c.bases h vars = .ok (h1, vars') →
      (∀ i, h i ≠ "" → h1 i = h i) ∧ (∀ i, i ∉ ownFuncs vars → h1 i = h i) ∧ vars'.map Prod.fst = vars.map Prod.fst ∧
      ∀ h0 : DocHeap, (∀ i, h0 i ≠ "" → h i = h0 i) → List.Forall₂ (fun v v' => sameEntry h0 v.2 v'.2) vars vars' := by
    intro vars
    induction vars with
    | nil =>
      intro vars' h h1 hl
      simp only [inheritLoop, Except.ok.injEq, Prod.mk.injEq] at hl
      obtain ⟨rfl, rfl⟩ := hl
      exact ⟨fun _ _ => rfl, fun _ _ => rfl, rfl, fun _ _ => .nil⟩
    | cons v rest ih =>
      intro vars' h h1 hl
      obtain ⟨n, a⟩ := v
      simp only [inheritLoop, bind_ok] at hl
      obtain ⟨⟨h2, a'⟩, hstep, ⟨h3, rest'⟩, hrest, he⟩ := hl
      simp only [Except.ok.injEq, Prod.mk.injEq] at he
      obtain ⟨rfl, rfl⟩ := he
      obtain ⟨i1, i2, i3, i4⟩ := ih _ _ _ hrest
      simp only at i1 i2 i4
      have step : (∀ i, h i ≠ "" → h2 i = h i) ∧ (∀ i, i ∉ ownFuncs ((n, a) :: rest) → h2 i = h i) ∧
          ∀ h0 : DocHeap, (∀ i, h0 i ≠ "" → h i = h0 i) → sameEntry h0 a a' := by
        cases a with
        | func id =>
          simp only [inheritStep] at hstep
          split at hstep
          · rename_i hid
            split at hstep
            · simp only [Except.ok.injEq, Prod.mk.injEq] at hstep
              obtain ⟨rfl, rfl⟩ := hstep
              refine ⟨fun i hi => ?_, fun i hi => ?_, fun _ _ => rfl⟩
              · rw [Function.update_of_ne]; rintro rfl; exact hi hid
              · rw [Function.update_of_ne]; rintro rfl; apply hi; simp [ownFuncs]
            · simp only [Except.ok.injEq, Prod.mk.injEq] at hstep
              obtain ⟨rfl, rfl⟩ := hstep
              exact ⟨fun _ _ => rfl, fun _ _ => rfl, fun _ _ => rfl⟩
          · simp only [Except.ok.injEq, Prod.mk.injEq] at hstep
            obtain ⟨rfl, rfl⟩ := hstep
            exact ⟨fun _ _ => rfl, fun _ _ => rfl, fun _ _ => rfl⟩
        | prop g d =>
          simp only [inheritStep] at hstep
          split at hstep
          · rename_i hg
            simp only [bind_ok] at hstep
            obtain ⟨o, -, hstep⟩ := hstep
            have h0g : ∀ h0 : DocHeap, (∀ i, h0 i ≠ "" → h i = h0 i) → h0 g = "" := fun h0 hh => by
              by_contra hne
              exact hne (by rw [← hh g hne, hg])
            split at hstep <;>
            · simp only [Except.ok.injEq, Prod.mk.injEq] at hstep
              obtain ⟨rfl, rfl⟩ := hstep
              exact ⟨fun _ _ => rfl, fun _ _ => rfl, fun h0 hh => ⟨⟨_, rfl⟩, fun hne => absurd (h0g h0 hh) hne⟩⟩
          · simp only [Except.ok.injEq, Prod.mk.injEq] at hstep
            obtain ⟨rfl, rfl⟩ := hstep
            exact ⟨fun _ _ => rfl, fun _ _ => rfl, fun _ _ => ⟨⟨_, rfl⟩, fun _ => rfl⟩⟩
        | other t d =>
          simp only [inheritStep, Except.ok.injEq, Prod.mk.injEq] at hstep
          obtain ⟨rfl, rfl⟩ := hstep
          exact ⟨fun _ _ => rfl, fun _ _ => rfl, fun _ _ => rfl⟩
      obtain ⟨s1, s2, s3⟩ := step
      refine ⟨fun i hi => ?_, fun i hi => ?_, by simp [i3], fun h0 hh => .cons (s3 h0 hh) (i4 h0 fun i hi => ?_)⟩
      · rw [i1 i (by rw [s1 i hi]; exact hi), s1 i hi]
      · rw [i2 i, s2 i hi]
        intro hm; apply hi
        unfold ownFuncs at hm ⊢
        rw [List.filterMap_cons]
        split <;> simp [hm]
      · rw [s1 i (by rw [hh i hi]; exact hi), hh i hi]
  obtain ⟨t1, t2, t3, t4⟩ := this _ _ _ _ hl
  exact ⟨t1, t2, t3, t4 h fun _ _ => rfl⟩

/-- Full description of the loop's result when the class's functions are distinct and not shared with its bases. -/
theorem inheritLoop_spec {bases : List (String → Option Attr)} {ids : List ℕ} (hav : basesAvoid ids bases) :
    ∀ (vars : List (String × Attr)) (h : DocHeap) (h1 : DocHeap) (vars' : List (String × Attr)),
    (ownFuncs vars).Nodup → (∀ i ∈ ownFuncs vars, i ∈ ids) →
    (∀ v ∈ vars, ∀ g d, v.2 = .prop g d → g ∉ ids) →
    inheritLoop bases h vars = .ok (h1, vars') →
    (∀ v ∈ vars, ∀ i, v.2 = .func i → h1 i = if h i = "" then (firstBaseDoc h v.1 bases).getD "" else h i) ∧
    (∀ i, i ∉ ownFuncs vars → h1 i = h i) ∧
    vars' = vars.map fun v => (v.1, entryAfter h bases v.1 v.2) := by
  intro vars
  induction vars with
  | nil =>
    intro h h1 vars' _ _ _ hl
    simp only [inheritLoop, Except.ok.injEq, Prod.mk.injEq] at hl
    obtain ⟨rfl, rfl⟩ := hl
    simp
  | cons v rest ih =>
    intro h h1 vars' hnd hids hpr hl
    obtain ⟨n, a⟩ := v
    simp only [inheritLoop, bind_ok] at hl
    obtain ⟨⟨h2, a'⟩, hstep, ⟨h3, rest'⟩, hrest, he⟩ := hl
    simp only [Except.ok.injEq, Prod.mk.injEq] at he
    obtain ⟨rfl, rfl⟩ := he
    have hsub : ∀ i ∈ ownFuncs rest, i ∈ ownFuncs ((n, a) :: rest) := fun i hi => by
      unfold ownFuncs at hi ⊢; rw [List.filterMap_cons]; split <;> simp [hi]
    have hnd' : (ownFuncs rest).Nodup := by
      unfold ownFuncs at hnd ⊢; rw [List.filterMap_cons] at hnd; split at hnd
      · exact hnd
      · exact (List.nodup_cons.1 hnd).2
    obtain ⟨i1, i2, i3⟩ := ih h2 h3 rest' hnd' (fun i hi => hids i (hsub i hi)) (fun v hv => hpr v (by simp [hv])) hrest
    -- the step only touches the own function
    have step : (∀ i, a = .func i → h2 i = if h i = "" then (firstBaseDoc h n bases).getD "" else h i) ∧
        (∀ i, a ≠ .func i → h2 i = h i) ∧ a' = entryAfter h bases n a := by
      cases a with
      | func id =>
        simp only [inheritStep, findFuncDoc_eq] at hstep
        split at hstep
        · rename_i hid
          split at hstep
          · rename_i d hd
            simp only [Except.ok.injEq, Prod.mk.injEq] at hstep
            obtain ⟨rfl, rfl⟩ := hstep
            refine ⟨fun i hi => ?_, fun i hi => ?_, rfl⟩
            · cases hi; simp [hid, hd]
            · rw [Function.update_of_ne]; rintro rfl; exact hi rfl
          · rename_i hd
            simp only [Except.ok.injEq, Prod.mk.injEq] at hstep
            obtain ⟨rfl, rfl⟩ := hstep
            refine ⟨fun i hi => ?_, fun _ _ => rfl, rfl⟩
            cases hi; simp [hid, hd]
        · rename_i hid
          simp only [Except.ok.injEq, Prod.mk.injEq] at hstep
          obtain ⟨rfl, rfl⟩ := hstep
          refine ⟨fun i hi => ?_, fun _ _ => rfl, rfl⟩
          cases hi; simp [hid]
      | prop g d =>
        simp only [inheritStep] at hstep
        refine ⟨fun i hi => (by cases hi), ?_⟩
        split at hstep
        · rename_i hg
          simp only [bind_ok] at hstep
          obtain ⟨o, ho, hstep⟩ := hstep
          have ho := findPropDoc_first h n ho
          simp only [entryAfter, hg, if_true, ← ho]
          split at hstep <;>
          · simp only [Except.ok.injEq, Prod.mk.injEq] at hstep
            obtain ⟨e1, e2⟩ := hstep
            subst e1 e2
            exact ⟨fun _ _ => rfl, rfl⟩
        · rename_i hg
          simp only [Except.ok.injEq, Prod.mk.injEq] at hstep
          obtain ⟨rfl, rfl⟩ := hstep
          exact ⟨fun _ _ => rfl, by simp [entryAfter, hg]⟩
      | other t d =>
        simp only [inheritStep, Except.ok.injEq, Prod.mk.injEq] at hstep
        obtain ⟨rfl, rfl⟩ := hstep
        exact ⟨fun i hi => (by cases hi), fun _ _ => rfl, rfl⟩
    obtain ⟨s1, s2, s3⟩ := step
    have hout : ∀ i, i ∉ ids → h2 i = h i := fun i hi => s2 i fun ha => by
      subst ha; exact hi (hids i (by simp [ownFuncs]))
    -- functions of the rest are not the one of the head
    have hdist : ∀ i ∈ ownFuncs rest, a ≠ .func i := fun i hi ha => by
      subst ha
      simp only [ownFuncs, List.filterMap_cons] at hnd
      exact (List.nodup_cons.1 hnd).1 hi
    refine ⟨fun v hv i hi => ?_, fun i hi => ?_, ?_⟩
    · rcases List.mem_cons.1 hv with rfl | hv
      · simp only at hi
        subst hi
        have : i ∉ ownFuncs rest := by
          simp only [ownFuncs, List.filterMap_cons] at hnd
          exact (List.nodup_cons.1 hnd).1
        rw [i2 i this, s1 i rfl]
      · have hmem : i ∈ ownFuncs rest := by
          unfold ownFuncs; rw [List.mem_filterMap]; exact ⟨v, hv, by rw [hi]⟩
        rw [i1 v hv i hi, s2 i (hdist i hmem), firstBaseDoc_congr hout hav]
    · rw [i2 i fun hm => hi (hsub i hm), s2 i]
      rintro rfl; apply hi; simp [ownFuncs]
    · rw [i3, s3, List.map_cons]
      congr 1
      refine List.map_congr_left fun v hv => ?_
      congr 1
      cases hv2 : v.2 with
      | func i => rfl
      | other t d => rfl
      | prop g d =>
        have hg := hout g (hpr v (by simp [hv]) g d hv2)
        simp only [entryAfter, hg, firstGetterDoc_congr hout hav]

/-- C65 (partial): for a class whose functions are distinct objects not visible through its bases (and whose property
getters are not also methods), an undocumented method gets the docstring of the first base that has one,
and everything documented keeps its docstring. Missing, because false: a property that was given an explicit
docstring but has an undocumented getter loses it (`C65_property_doc_overwritten`). -/
theorem C65_inheritDoc_partial {h h' : DocHeap} {c c' : PyClass} (hnd : (ownFuncs c.vars).Nodup)
    (hav : basesAvoid (ownFuncs c.vars) c.bases) (hpr : ∀ v ∈ c.vars, ∀ g d, v.2 = .prop g d → g ∉ ownFuncs c.vars)
    (hr : inheritDoc h c = .ok (h', c')) :
    (∀ v ∈ c.vars, ∀ i, v.2 = .func i →
      h' i = if h i = "" then (firstBaseDoc h v.1 c.bases).getD "" else h i) ∧
    (∀ i, i ∉ ownFuncs c.vars → h' i = h i) ∧
    c' = { c with vars := c.vars.map fun v => (v.1, entryAfter h c.bases v.1 v.2) } := by
  unfold inheritDoc at hr
  simp only [bind_ok] at hr
  obtain ⟨⟨h1, vars'⟩, hl, he⟩ := hr
  simp only [Except.ok.injEq, Prod.mk.injEq] at he
  obtain ⟨rfl, rfl⟩ := he
  obtain ⟨a, b, d⟩ := inheritLoop_spec hav c.vars h h1 vars' hnd (fun _ h => h) hpr hl
  exact ⟨a, b, by rw [d]⟩

/-- C65, idempotence: decorating twice is the same as once. -/
theorem C65_idempotent {h h' : DocHeap} {c c' : PyClass} (hnd : (ownFuncs c.vars).Nodup)
    (hav : basesAvoid (ownFuncs c.vars) c.bases) (hpr : ∀ v ∈ c.vars, ∀ g d, v.2 = .prop g d → g ∉ ownFuncs c.vars)
    (hr : inheritDoc h c = .ok (h', c')) {h'' : DocHeap} {c'' : PyClass} (hr2 : inheritDoc h' c' = .ok (h'', c'')) :
    h'' = h' ∧ c'' = c' := by
  obtain ⟨a1, b1, d1⟩ := C65_inheritDoc_partial hnd hav hpr hr
  have hown : ownFuncs c'.vars = ownFuncs c.vars := by
    rw [d1]
    simp only [ownFuncs, List.filterMap_map]
    refine List.filterMap_congr fun v hv => ?_
    simp only [Function.comp]
    cases hv2 : v.2 with
    | func i => rfl
    | other t d => rfl
    | prop g d =>
      obtain ⟨d', hd'⟩ := entryAfter_prop h c.bases v.1 g d
      rw [hd']
  have hb : c'.bases = c.bases := by rw [d1]
  have hpr' : ∀ v ∈ c'.vars, ∀ g d, v.2 = .prop g d → g ∉ ownFuncs c'.vars := by
    intro v hv g d hvd
    rw [hown]
    rw [d1] at hv
    obtain ⟨w, hw, rfl⟩ := List.mem_map.1 hv
    simp only at hvd
    cases hw2 : w.2 with
    | func i => rw [hw2] at hvd; cases hvd
    | other t d => rw [hw2] at hvd; cases hvd
    | prop g' d' =>
      have hg := hpr w hw g' d' hw2
      rw [hw2] at hvd
      obtain ⟨d'', hd''⟩ := entryAfter_prop h c.bases w.1 g' d'
      rw [hd''] at hvd
      simp only [Attr.prop.injEq] at hvd
      rw [← hvd.1]; exact hg
  obtain ⟨a2, b2, d2⟩ := C65_inheritDoc_partial (by rw [hown]; exact hnd) (by rw [hown, hb]; exact hav) hpr' hr2
  rw [hown] at b2
  rw [hb] at a2 d2
  constructor
  · funext i
    by_cases hi : i ∈ ownFuncs c.vars
    · unfold ownFuncs at hi
      obtain ⟨v, hv, hvi⟩ := List.mem_filterMap.1 hi
      have hvi' : v.2 = .func i := by
        cases hv2 : v.2 with
        | func j => rw [hv2] at hvi; simp at hvi; rw [hvi]
        | prop g d => rw [hv2] at hvi; cases hvi
        | other t d => rw [hv2] at hvi; cases hvi
      have hv' : (v.1, Attr.func i) ∈ c'.vars := by
        rw [d1]; exact List.mem_map.2 ⟨v, hv, by rw [hvi']; rfl⟩
      rw [a2 _ hv' i rfl]
      split
      · rename_i h0
        rw [firstBaseDoc_congr b1 hav]
        have := a1 v hv i hvi'
        rw [h0] at this
        rw [h0]
        split at this
        · exact this.symm
        · rename_i h1; exact absurd this.symm h1
      · rfl
    · exact b2 i hi
  · rw [d2]
    conv_rhs => rw [← show ({ c' with vars := c'.vars } : PyClass) = c' from rfl]
    rw [← hb]
    congr 1
    conv_rhs => rw [← List.map_id c'.vars]
    refine List.map_congr_left fun v hv => ?_
    rw [hb]
    rw [d1] at hv
    obtain ⟨w, hw, rfl⟩ := List.mem_map.1 hv
    simp only [id]
    congr 1
    cases hw2 : w.2 with
    | func i => rfl
    | other t d => rfl
    | prop g d =>
      have hg := hpr w hw g d hw2
      simp only [entryAfter]
      by_cases hd : h g = ""
      · rw [if_pos hd]
        cases hf : firstGetterDoc h w.1 c.bases with
        | none => simp only [hf, b1 g hg, firstGetterDoc_congr b1 hav, hd, if_true]
        | some d' => simp only [hf, b1 g hg, firstGetterDoc_congr b1 hav, hd, if_true]
      · rw [if_neg hd]
        simp only [b1 g hg, hd, if_false]

/-- C65 is false for properties: `x = property(getter_without_doc, doc='mine')` overriding a documented property
`x` of a base ends up with the base's docstring. -/
theorem C65_property_doc_overwritten : ∃ (h : DocHeap) (c c' : PyClass), inheritDoc h c = .ok (h, c') ∧
    c.vars = [("x", .prop 0 "mine")] ∧ c'.vars = [("x", .prop 0 "base doc")] :=
  ⟨fun i => if i = 1 then "base doc" else "", ⟨[("x", .prop 0 "mine")], [fun n => if n = "x" then some (.prop 1 "base doc") else none]⟩,
    ⟨[("x", .prop 0 "base doc")], [fun n => if n = "x" then some (.prop 1 "base doc") else none]⟩, by
      simp [inheritDoc, inheritLoop, inheritStep, findPropDoc, bind, Except.bind], rfl, rfl⟩

/-- a property overriding a base's plain method makes the decorator raise AttributeError -/
theorem C65_property_over_method_raises : ∃ (h : DocHeap) (c : PyClass), inheritDoc h c = .error .attributeError ∧
    c.vars = [("x", .prop 0 "")] :=
  ⟨fun _ => "", ⟨[("x", .prop 0 "")], [fun n => if n = "x" then some (.func 1) else none]⟩, by
      simp [inheritDoc, inheritLoop, inheritStep, findPropDoc, bind, Except.bind, Attr.truthy], rfl⟩

/-- a class with an undocumented override, a documented own method and a constant -/
example : ∃ (h h' : DocHeap) (c c' : PyClass), inheritDoc h c = .ok (h', c') ∧ (ownFuncs c.vars).Nodup ∧
    basesAvoid (ownFuncs c.vars) c.bases ∧ h 0 = "" ∧ h' 0 = "doc of f" ∧ h' 1 = "own" := by
  refine ⟨fun i => if i = 1 then "own" else if i = 2 then "doc of f" else "", _,
    ⟨[("f", .func 0), ("g", .func 1), ("K", .other true "")], [fun _ => none, fun n => if n = "f" then some (.func 2) else none]⟩, _,
    rfl, by decide, ?_, rfl, rfl, rfl⟩
  intro p hp n
  simp only [List.mem_cons, List.not_mem_nil, or_false] at hp
  rcases hp with rfl | rfl
  · simp
  · simp only
    split <;> simp [ownFuncs]

end Verif
