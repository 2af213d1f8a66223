import Mathlib.Algebra.Field.Rat
import Mathlib.Data.Rat.Floor
import Mathlib.Algebra.BigOperators.Group.List.Basic
import Verif.Model.Engine

/-!
# Model of `objects/units.py` and `services/unitnormaliser.py`

Generic in

* `U`: unit definitions (objects, compared by identity), `D`: names of dimensions;
* `K`: the field numbers are computed in, and `pw : K → ℚ → K`, `Number.__pow__`.

Simplifications: numbers are exact (the rounding of `Number` is modelled in `Model/Number.lean`);
powers of units are rationals; two power lists are equal when they have the same entries in any
order, while the code compares the sorted texts `name^power` of their entries
(`units.py:120-124, 154-164`); lists are passed as values, and what the code does to a list in
place is returned as the changed list.
-/

namespace MC.Unit

/-- A list of keys with powers (`units.py:139-150`): units (`UnitPowerList`) or dimensions
(`DimensionPowerList`). -/
abbrev PL (A : Type) := List (A × ℚ)

section PowerList
variable {A : Type} [DecidableEq A]

/-- `AbstractPowerList.find` (`units.py:190-194`), the power of the object found. -/
def find (k : A) (l : PL A) : Option ℚ := (l.find? (fun o => o.1 = k)).map (·.2)

/-- `existing.power += power`, and `_del(existing)` when the power is now zero
(`units.py:201-203`), where `existing` is the first object with the key. -/
def bump (k : A) (p : ℚ) : PL A → PL A
  | [] => []
  | o :: l => if o.1 = k then (if o.2 + p = 0 then l else (o.1, o.2 + p) :: l) else o :: bump k p l

/-- `AbstractPowerList.add` (`units.py:196-203`). -/
def add (k : A) (p : ℚ) (l : PL A) : PL A :=
  match find k l with
  | none => l ++ [(k, p)]
  | some _ => bump k p l

/-- `AbstractPowerList.remove` (`units.py:205-206`). -/
def remove (k : A) (p : ℚ) (l : PL A) : PL A := add k (-p) l

/-- `AbstractPowerList.multiply` (`units.py:211-212`, `129-133`). -/
def multiply (p : ℚ) (l : PL A) : PL A := l.map (fun o => (o.1, o.2 * p))

/-- `AbstractPowerList.merge` (`units.py:214-218`). -/
def merge (l m : PL A) : PL A := m.foldl (fun acc o => add o.1 o.2 acc) l

/-- `AbstractPowerList.remove_zeros` (`units.py:229-230`). -/
def removeZeros (l : PL A) : PL A := l.filter (fun o => o.2 ≠ 0)

/-- `AbstractPowerList.check_empty` (`units.py:232-235`). -/
def checkEmpty (l : PL A) : Option (PL A) := if l.length = 0 then none else some l

/-- `UnitPowerList.addall` (`units.py:366-368`). -/
def addAll (m : PL A) (p : ℚ) (l : PL A) : PL A := m.foldl (fun acc o => add o.1 (o.2 * p) acc) l

/-- `UnitPowerList.removeall` (`units.py:370-371`). -/
def removeAll (m : PL A) (p : ℚ) (l : PL A) : PL A := addAll m (-p) l

/-- `UnitPowerList.new` (`units.py:253-259`). -/
def newList (ups : List (PL A × ℚ)) : Option (PL A) :=
  checkEmpty (ups.foldl (fun acc up => addAll up.1 up.2 acc) [])

/-- `UnitPowerList.newfromunit` (`units.py:261-264`). -/
def newFromUnit (u : A) : PL A := add u 1 []

/-- `UnitPowerList.power` (`units.py:383-384`). -/
def power (p : ℚ) (l : PL A) : Option (PL A) := checkEmpty (removeZeros (multiply p l))

/-- `AbstractPowerList.__eq__` (`units.py:154-164`), see the file comment. -/
def same (l m : PL A) : Bool := l.isPerm m

/-- An object in a list that is being changed in place; `id` is its identity. -/
structure Obj (A : Type) where
  id : ℕ
  key : A
  pow : ℚ

/-- Lines 225-226 for one duplicate: `obj.power += duplicate.power`, which changes the list only
while `obj` is in it, and `newlist._del(duplicate)`, which removes the *first* object with the
same key and power (`units.py:178-179`, `114-115`). -/
def absorb (oid : ℕ) (l : List (Obj A)) (dup : Obj A) : List (Obj A) :=
  (l.map (fun o => if o.id = oid then { o with pow := o.pow + dup.pow } else o)).eraseP
    (fun o => o.key = dup.key ∧ o.pow = dup.pow)

/-- The loop of `deduplicate` (`units.py:222-226`).  Python's iteration goes on with the next
index of the changed list.  First argument: a bound on the number of steps. -/
def dedupLoop : ℕ → ℕ → List (Obj A) → List (Obj A)
  | 0, _, l => l
  | n + 1, i, l =>
    match l[i]? with
    | none => l
    | some obj =>
      let dups := (l.drop (i + 1)).filter (fun o => o.key = obj.key)
      dedupLoop n (i + 1) (dups.foldl (absorb obj.id) l)

/-- The objects of a fresh copy of a list (`units.py:221`, `208-209`). -/
def toObjs : ℕ → PL A → List (Obj A)
  | _, [] => []
  | n, o :: l => ⟨n, o.1, o.2⟩ :: toObjs (n + 1) l

/-- `AbstractPowerList.deduplicate` (`units.py:220-227`). -/
def deduplicate (l : PL A) : PL A :=
  removeZeros ((dedupLoop l.length 0 (toObjs 0 l)).map (fun o => (o.key, o.pow)))

end PowerList

/-- Which `convert` a unit definition has: `UnitDefinition.convert` (`units.py:90-91`), or one of
the two overriding ones (`temperature.py:45-52`, `61-68`). -/
inductive Kind where
  | scale
  | celsius
  | fahrenheit
  deriving DecidableEq, Repr

/-- The attributes of `UnitDefinition` (`units.py:71-85`) the normaliser reads. -/
structure Info (D K : Type) where
  kind : Kind
  scale : K
  dim : D
  systems : List String
  relevant : List String
  useForCondense : Bool
  /-- `nameprefix is not None and nameprefix != ''` -/
  prefixed : Bool

/-- The attributes of `UnitNormaliser` (`unitnormaliser.py:12-34`) that conversion,
normalisation and simplification read. -/
structure Norm (U D K : Type) where
  info : U → Info D K
  /-- `relationships` -/
  rel : D → Option (PL D)
  /-- `units`: the registered units of each dimension -/
  units : List (D × List U)
  /-- `multiunits` -/
  multiunits : D → List (PL U)
  /-- `simplify_allow_prefixed_units` -/
  allowPrefixed : Bool
  /-- `get_closeness(a) < get_closeness(b)` (298-302), computed in floating point; a parameter -/
  closer : K → K → Except Raise Bool
  /-- `abs(a.log(10)) < abs(b.log(10))` for two scales (238); a parameter -/
  simpler : K → K → Bool

section Convert
variable {U D K : Type} [Field K] (pw : K → ℚ → K)

/-- `UnitDefinition.convert` and the two temperature ones (`units.py:90-91`,
`temperature.py:45-52`, `61-68`). -/
def convert (i : Info D K) (num : K) (power : ℚ) (relative : Bool) : Except Raise K :=
  match i.kind with
  | .scale => .ok (num / pw i.scale power)
  | .celsius =>
    if relative then .ok num
    else if power = -1 then .ok (num + 27315 / 100)
    else if power = 1 then .ok (num - 27315 / 100)
    else .error (.py "Can't perform absolute conversion with a power other than 1")
  | .fahrenheit =>
    if relative then .ok (num / pw (5 / 9) power)
    else if power = -1 then .ok ((num + 45967 / 100) * (5 / 9))
    else if power = 1 then .ok (num * (9 / 5) - 45967 / 100)
    else .error (.py "Can't perform absolute conversion with a power other than 1")

/-- `UnitPowerList.convert` (`units.py:355-358`). -/
def convertList (info : U → Info D K) : PL U → K → ℚ → Bool → Except Raise K
  | [], num, _, _ => .ok num
  | o :: l, num, power, relative => do
    let num ← convert pw (info o.1) num (o.2 * power) relative
    convertList info l num power relative

end Convert

section Normaliser
variable {U D K : Type} [DecidableEq U] [DecidableEq D] [Field K] (pw : K → ℚ → K)
variable (N : Norm U D K)

/-- `normalised_dimension` (`unitnormaliser.py:371-374`). -/
def normDim (d : D) : PL D :=
  match N.rel d with
  | some l => l
  | none => [(d, 1)]

/-- `unit_normalised_dimensionlist` (`unitnormaliser.py:365-369`). -/
def dimList (l : PL U) : PL D :=
  deduplicate (l.flatMap (fun u => (normDim N (N.info u.1).dim).map (fun d => (d.1, d.2 * u.2))))

/-- `unit_conversion` (`unitnormaliser.py:119-133`). -/
def unitConversion (num : K) (src dst : Option (PL U)) (relative : Bool) :
    Except Raise (K × Option (PL U)) :=
  match src, dst with
  | none, none => .ok (num, none)                                        -- 120-121
  | none, some _ => .error (.calc "From unit is not set")                -- 122-123
  | some _, none => .error (.calc "To unit is not set")                  -- 124-125
  | some a, some b =>
    if same a b then .ok (num, some a)                                   -- 120-121
    else if !same (dimList N a) (dimList N b) then                       -- 126-127
      .error (.calc "Can't convert units")
    else do
      let num ← convertList pw N.info a num (-1) relative                -- 130
      let num ← convertList pw N.info b num 1 relative                   -- 131
      return (num, some b)

/-! ### The search for sub-units with a given dimension -/

/-- Lines 325-333: the smallest and largest power tried for a unit. -/
def bounds (p : ℚ) : ℚ × ℚ := if p < 0 then (p, 0) else (0, p)

/-- Lines 354-361 on the reversed counter: add one to the last counter; a counter above its
maximum goes back to its minimum and the one before it is increased; `none` when the first
counter overflows.  (The code goes on comparing the counters before the last one increased,
which are all within their bounds.) -/
def tick : List (ℚ × ℚ) → List ℚ → Option (List ℚ)
  | b :: bs, c :: cs =>
    if b.2 < c + 1 then (tick bs cs).map (b.1 :: ·) else some ((c + 1) :: cs)
  | _, _ => none

/-- The loop 338-361: all the counters it looks at, in order (reversed counters).  First
argument: a bound on the number of steps. -/
def walk (bs : List (ℚ × ℚ)) : ℕ → List ℚ → List (List ℚ)
  | 0, _ => []
  | n + 1, cs =>
    cs :: match tick bs cs with
      | none => []
      | some cs' => walk bs n cs'

/-- The number of values a counter takes. -/
def width (b : ℚ × ℚ) : ℕ := ⌊b.2 - b.1⌋.toNat + 1

/-- All the counters the loop 338-361 looks at, in order. -/
def counters (ps : List ℚ) : List (List ℚ) :=
  let bs := (ps.map bounds).reverse
  (walk bs (bs.map width).prod (bs.map (·.1))).map List.reverse

/-- `goals[j][dimension]` (319-323): the last power given for the dimension, else zero. -/
def goalAt (g : PL D) (d : D) : ℚ := ((g.reverse.find? (fun o => o.1 = d)).map (·.2)).getD 0

/-- `thisgoal[dimension]` (340-344) for a counter. -/
def sumAt : List (U × ℚ × PL D) → List ℚ → D → ℚ
  | u :: us, n :: ns, d =>
    ((u.2.2.filter (fun o => o.1 = d)).map (fun o => n * o.2)).sum + sumAt us ns d
  | _, _, _ => 0

/-- `returnlist` (348-351). -/
def pick : List (U × ℚ × PL D) → List ℚ → PL U
  | u :: us, n :: ns => if n ≠ 0 then (u.1, n) :: pick us ns else pick us ns
  | _, _ => []

/-- `find_units_matching_dimensions` (`unitnormaliser.py:304-363`).  A unit of the list is given
with its power and its normalised dimensions (`UnitPowerDimensions`). -/
def findUnits (goals : List (PL D)) (units : List (U × ℚ × PL D)) : List (List (PL U)) :=
  let unitDims := (units.flatMap (fun u => u.2.2)).map (·.1)             -- 305-306
  let goalDims := goals.flatten.map (·.1)                                -- 307
  if !goalDims.any (fun d => unitDims.contains d) then goals.map (fun _ => [])   -- 308-312
  else goals.map (fun g =>
    ((counters (units.map (fun u => u.2.1))).filter (fun c =>
      (goalDims ++ unitDims).all (fun d => decide (goalAt g d = sumAt units c d)))).map
        (pick units))                                                    -- 314-363

/-- `get_subunit_list` (`unitnormaliser.py:368-369`). -/
def subunits (l : PL U) : List (U × ℚ × PL D) :=
  l.map (fun u => (u.1, u.2, normDim N (N.info u.1).dim))

/-! ### Normalising the inputs of an operation -/

/-- `d[key] = v` on a `dict` whose keys are power lists, kept in insertion order. -/
def dimSet (k : PL D) (u : U) : List (PL D × U) → List (PL D × U)
  | [] => [(k, u)]
  | e :: es => if same e.1 k then (e.1, u) :: es else e :: dimSet k u es

/-- `get_units_by_dimension` (`unitnormaliser.py:376-380`). -/
def unitsByDim (l : PL U) : List (PL D × U) :=
  l.foldl (fun acc u => dimSet (normDim N (N.info u.1).dim) u.1 acc) []

/-- `addandconvert` (`units.py:373-376`), for one unit definition (`units.py:87-88`). -/
def addConv (v : K) (l : PL U) (u : U) (p : ℚ) (relative : Bool) : Except Raise (K × PL U) := do
  let v ← convert pw (N.info u) v p relative
  return (v, add u (1 * p) l)

/-- `removeandconvert` (`units.py:378-381`), for one unit definition. -/
def removeConv (v : K) (l : PL U) (u : U) (p : ℚ) (relative : Bool) : Except Raise (K × PL U) := do
  let v ← convert pw (N.info u) v (-p) relative
  return (v, add u (1 * -p) l)

/-- Lines 171-172, 250-251 and 292-293: remove all these powers. -/
def removeEach (relative : Bool) : PL U → K × PL U → Except Raise (K × PL U)
  | [], s => .ok s
  | r :: rs, s => do
    let s ← removeConv pw N s.1 s.2 r.1 r.2 relative
    removeEach relative rs s

/-- Lines 188-190: add all these powers. -/
def addEach (relative : Bool) : PL U → K × PL U → Except Raise (K × PL U)
  | [], s => .ok s
  | r :: rs, s => do
    let s ← addConv pw N s.1 s.2 r.1 r.2 relative
    addEach relative rs s

/-- The units of the second list that may be replaced (166, 173). -/
def foreign (ud : List (PL D × U)) (l : PL U) : List (U × ℚ × PL D) :=
  (subunits N l).filter (fun u => !(ud.map (·.2)).contains u.1)

/-- The loop 166-174 for one dimension and one sign.  `none`: the bound on the number of steps
(first argument) was too small. -/
def leftLoop (ud : List (PL D × U)) (dims : PL D) (u : U) (p : ℚ) (relative : Bool) :
    ℕ → K × PL U → Option (Except Raise (K × PL U))
  | 0, _ => none
  | n + 1, s =>
    match (findUnits [dims] (foreign N ud s.2)).headD [] with
    | [] => some (.ok s)                                                 -- 168
    | found :: _ =>                                                      -- 169
      match (do
        let s ← addConv pw N s.1 s.2 u p relative                        -- 170
        removeEach pw N relative found s) with                           -- 171-172
      | .error e => some (.error e)
      | .ok s => leftLoop ud dims u p relative n s                       -- 173-174

/-- Run the loop body `f` for every element of a list. -/
def eachOpt {α σ : Type} (f : α → σ → Option (Except Raise σ)) :
    List α → σ → Option (Except Raise σ)
  | [], s => some (.ok s)
  | a :: as, s =>
    match f a s with
    | none => none
    | some (.error e) => some (.error e)
    | some (.ok s) => eachOpt f as s

/-- The loop headers 162-163 and 181-182: every dimension of a list with both signs. -/
def jobs (ud : List (PL D × U)) : List (PL D × U × ℚ) :=
  ud.flatMap (fun e => [(multiply 1 e.1, e.2, 1), (multiply (-1) e.1, e.2, -1)])

/-- `normalise_from_left` (`unitnormaliser.py:160-176`) on non-empty lists: the new value and
units of the second operand (the first is unchanged). -/
def fromLeft (fuel : ℕ) (l₁ : PL U) (s : K × PL U) (relative : Bool) :
    Option (Except Raise (K × PL U)) :=
  let ud := unitsByDim N l₁
  eachOpt (fun j s => leftLoop pw N ud j.1 j.2.1 j.2.2 relative fuel s) (jobs ud) s

/-- Lines 183-190 for one dimension and one sign. -/
def rightStep (l₁ : PL U) (relative : Bool) (j : PL D × U × ℚ) (s : K × PL U) :
    Except Raise (K × PL U) :=
  match (findUnits [j.1] (subunits N l₁)).headD [] with
  | [] => .ok s
  | found :: _ => do
    let s ← removeConv pw N s.1 s.2 j.2.1 j.2.2 relative
    addEach pw N relative (found.map (fun a => (a.1, a.2 * |j.2.2|))) s

/-- `normalise_from_right` (`unitnormaliser.py:178-192`): the new value and units of the second
operand. -/
def fromRight (l₁ : PL U) (s : K × PL U) (relative : Bool) : Except Raise (K × PL U) :=
  (jobs (unitsByDim N s.2)).foldlM (fun s j => rightStep pw N l₁ relative j s) s

/-- Lines 151-153: normalise operand `j` after operand `i`.  After line 152 the second list can be
empty (`None`), and then `units[j].copy()` in line 153 raises `AttributeError`. -/
def normPair (fuel : ℕ) (relative : Bool) (a b : K × Option (PL U)) :
    Option (Except Raise (K × Option (PL U))) :=
  match a.2, b.2 with
  | some l₁, some l₂ =>
    match fromLeft pw N fuel l₁ (b.1, l₂) relative with
    | none => none
    | some (.error e) => some (.error e)
    | some (.ok s) =>
      match checkEmpty l₁, checkEmpty s.2 with
      | some l₁, some l₂ => some (do
          let s ← fromRight pw N l₁ (s.1, l₂) relative
          return (s.1, checkEmpty s.2))
      | _, _ => some (.error (.py "'NoneType' object has no attribute 'copy'"))
  | _, _ => some (.ok b)

/-- The inner loop 150-153: normalise all operands after operand `a`. -/
def normAfter (fuel : ℕ) (relative : Bool) (a : K × Option (PL U)) :
    List (K × Option (PL U)) → Option (Except Raise (List (K × Option (PL U))))
  | [] => some (.ok [])
  | b :: bs =>
    match normPair pw N fuel relative a b with
    | none => none
    | some (.error e) => some (.error e)
    | some (.ok b) =>
      match normAfter fuel relative a bs with
      | none => none
      | some (.error e) => some (.error e)
      | some (.ok bs) => some (.ok (b :: bs))

/-- The outer loop 149-153, from the last operand but one to the first. -/
def normMulti (fuel : ℕ) (relative : Bool) :
    List (K × Option (PL U)) → Option (Except Raise (List (K × Option (PL U))))
  | [] => some (.ok [])
  | a :: as =>
    match normMulti fuel relative as with
    | none => none
    | some (.error e) => some (.error e)
    | some (.ok as) =>
      match normAfter pw N fuel relative a as with
      | none => none
      | some (.error e) => some (.error e)
      | some (.ok as) => some (.ok (a :: as))

/-- Lines 155-156: convert every operand after the first to the unit of the first. -/
def normSame (relative : Bool) : List (K × Option (PL U)) →
    Except Raise (List (K × Option (PL U)))
  | [] => .ok []
  | a :: as => do
    let as ← as.mapM (fun b => unitConversion pw N b.1 b.2 a.2 relative)
    return a :: as

/-- `normalise_inputs` (`unitnormaliser.py:141-158`): the operands and the unit of the result. -/
def normaliseInputs (fuel : ℕ) (multi relative : Bool) (xs : List (K × Option (PL U))) :
    Option (Except Raise (List (K × Option (PL U)) × Option (PL U))) :=
  let actual := xs.filterMap (·.2)
  let resultUnit := if multi then none else actual.head?
  if actual.isEmpty || xs.length ≤ 1 then some (.ok (xs, resultUnit))
  else if multi then
    match normMulti pw N fuel relative xs with
    | none => none
    | some r => some (do return (← r, resultUnit))
  else some (do return (← normSame pw N relative xs, resultUnit))

/-! ### Simplifying the unit of an answer -/

/-- What a group of sub-units may be replaced with: a unit or a multi-unit (`208-211`). -/
inductive Cand (U : Type) where
  | one (u : U)
  | multi (l : PL U)

/-- `unit.list()` of a candidate (`units.py:87-88`, `184-185`). -/
def Cand.list : Cand U → PL U
  | .one u => [(u, 1)]
  | .multi l => l

/-- `replace_unit.convert` (`units.py:90-91`, `355-358`). -/
def Cand.convert (c : Cand U) (v : K) (p : ℚ) (relative : Bool) : Except Raise K :=
  match c with
  | .one u => Unit.convert pw (N.info u) v p relative
  | .multi l => convertList pw N.info l v p relative

/-- The number of dimensions of a list, as counted in 220 and 233. -/
def dimCount (l : PL U) : ℕ := (l.flatMap (fun u => normDim N (N.info u.1).dim)).length

/-- Lines 223-234: whether a candidate is considered. -/
def Cand.eligible (systems : List String) (count : ℕ) : Cand U → Bool
  | .one u =>
    let i := N.info u
    if !N.allowPrefixed && i.prefixed then false
    else if !i.useForCondense then false
    else (i.systems ++ i.relevant).any (fun s => systems.contains s)
  | .multi l =>
    if !(l.flatMap (fun u => (N.info u.1).systems)).any (fun s => systems.contains s) then false
    else !decide (count ≤ dimCount N l)

/-- Lines 243-245: the value with the group replaced by the candidate. -/
def replaceValue (found : PL U) (c : Cand U) (power mult : ℚ) (v : K) : Except Raise K := do
  let v ← found.foldlM (fun v u => Unit.convert pw (N.info u.1) v (-(u.2 * mult)) false) v
  c.convert pw N v (power * mult) false

/-- Lines 221-248: the candidate whose value is closest to the preferred magnitude. -/
def closest [DecidableEq K] (found : PL U) (power mult : ℚ) (v : K) (systems : List String) :
    List (Cand U) → Option (Cand U × K) → Except Raise (Option (Cand U × K))
  | [], best => .ok best
  | c :: cs, best =>
    if !c.eligible N systems (dimCount N found) then closest found power mult v systems cs best
    else if v = 0 then                                                   -- 236-240
      match best, c with
      | none, c => closest found power mult v systems cs (some (c, v))
      | some (.one b, _), .one u =>
        closest found power mult v systems cs
          (if N.simpler (N.info u).scale (N.info b).scale then some (c, v) else best)
      | some _, _ => .error (.py "'UnitPowerList' object has no attribute 'unitscale'")
    else do                                                              -- 241-248
      let w ← replaceValue pw N found c power mult v
      match best with
      | none => closest found power mult v systems cs (some (c, w))
      | some b =>
        let better ← N.closer w b.2
        closest found power mult v systems cs (if better then some (c, w) else best)

/-- Line 216: `min([unit.find(u.unit).power / u.power for u in unitsfound])`. -/
def multPower (l : PL U) : PL U → Except Raise ℚ
  | [] => .error (.py "min() arg is an empty sequence")
  | u :: us =>
    match find u.1 l with
    | none => .error (.py "'NoneType' object has no attribute 'power'")
    | some p =>
      match us with
      | [] => .ok (p / u.2)
      | _ => do return min (p / u.2) (← multPower l us)

/-- The second part of line 217: the unit is a single one with a negative power, which the
replacement makes positive. -/
def soleNegative (l : PL U) (power mult : ℚ) : Bool :=
  match l with
  | [o] => decide (o.2 < 0) && decide (o.2 = -(power * mult))
  | _ => false

/-- Lines 215-254 for one dimension and sign: the first group that can be replaced. -/
def tryGroups [DecidableEq K] (d : D) (power : ℚ) (systems : List String) (v : K) (l : PL U) :
    List (PL U) → Except Raise (Option (K × PL U))
  | [] => .ok none
  | found :: rest => do
    let mult ← multPower l found                                         -- 216
    if 1 < found.length || soleNegative l power mult then                -- 217
      let cands := ((N.units.filter (fun e => e.1 = d)).flatMap (fun e => e.2.map Cand.one))
        ++ (N.multiunits d).map Cand.multi                               -- 208-211
      match ← closest pw N found power mult v systems cands none with
      | none => tryGroups d power systems v l rest
      | some (c, _) =>
        let s ← removeEach pw N false (found.map (fun u => (u.1, u.2 * mult))) (v, l)  -- 250-251
        let w ← c.convert pw N s.1 (power * mult) false                  -- 252
        return some (w, addAll c.list (power * mult) s.2)
    else tryGroups d power systems v l rest

/-- Lines 206-258 (the inner `for`): the first replacement found; `none` when there is none. -/
def tryDims [DecidableEq K] (systems : List String) (v : K) (l : PL U) :
    List ((D × ℚ) × List (PL U)) → Except Raise (Option (K × PL U))
  | [] => .ok none
  | e :: es => do
    match ← tryGroups pw N e.1.1 e.1.2 systems v l e.2 with
    | some s => return some s
    | none => tryDims systems v l es

/-- Lines 197-199: the dimensions and signs searched for. -/
def simplifyJobs : List (D × ℚ) := N.units.flatMap (fun e => [(e.1, 1), (e.1, -1)])

/-- The loop 201-258.  First argument: a bound on the number of rounds; `none`: it was too
small. -/
def simplifyLoop [DecidableEq K] : ℕ → K → PL U → Option (Except Raise (K × PL U))
  | 0, _, _ => none
  | n + 1, v, l =>
    let systems := l.flatMap (fun u => (N.info u.1).systems)             -- 203
    let found := findUnits ((simplifyJobs N).map (fun j => multiply j.2 (normDim N j.1)))
      (subunits N l)                                                     -- 204
    match tryDims pw N systems v l ((simplifyJobs N).zip found) with
    | .error e => some (.error e)
    | .ok none => some (.ok (v, l))
    | .ok (some s) => simplifyLoop n s.1 s.2

/-- Lines 268-272: the indices of the sub-units of each dimension. -/
def dimIndices (l : PL U) : List (D × List ℕ) :=
  let ds := l.map (fun u => (N.info u.1).dim)
  (ds.eraseDups).map (fun d => (d, (List.range l.length).filter (fun i => ds[i]? = some d)))

/-- `unit.list()[i]`. -/
def at' (l : PL U) (i : ℕ) : Except Raise (U × ℚ) :=
  match l[i]? with
  | some u => .ok u
  | none => .error (.py "list index out of range")

/-- Lines 284-288: replace the units at these indices of the changing list. -/
def replaceAt (u : U) : List ℕ → K × PL U → Except Raise (K × PL U)
  | [], s => .ok s
  | i :: is, s => do
    let o ← at' s.2 i                                                    -- 285
    if o.1 = u then replaceAt u is s
    else
      let s ← removeConv pw N s.1 s.2 o.1 o.2 false                      -- 287
      let s ← addConv pw N s.1 s.2 u o.2 false                           -- 288
      replaceAt u is s

/-- Lines 275-293 for one dimension. -/
def dedupeDim (is : List ℕ) (s : K × PL U) : Except Raise (K × PL U) :=
  if 1 < is.length then do
    let os ← is.mapM (at' s.2)                                           -- 278-280
    if (os.map (·.2)).sum ≠ 0 then                                       -- 281
      let head ← at' s.2 0                                               -- 283
      replaceAt pw N head.1 is s
    else removeEach pw N false os s                                      -- 291-293
  else .ok s

/-- `dedupe` (`unitnormaliser.py:265-296`). -/
def dedupe (v : K) (l : PL U) : Except Raise (K × PL U) :=
  if 1 < l.length then
    (dimIndices N l).foldlM (fun s e => dedupeDim pw N e.2 s) (v, l)
  else .ok (v, l)

/-- Line 195. -/
def needsSimplify (l : PL U) : Bool :=
  match l with
  | [] => false
  | [o] => decide (o.2 < 0)
  | _ => true

/-- `simplify_units` (`unitnormaliser.py:194-262`). -/
def simplifyUnits [DecidableEq K] (fuel : ℕ) (v : K) (l : PL U) :
    Option (Except Raise (K × Option (PL U))) :=
  match (if needsSimplify l then simplifyLoop pw N fuel v l else some (.ok (v, l))) with
  | none => none
  | some (.error e) => some (.error e)
  | some (.ok s) => some (do
      let s ← dedupe pw N s.1 s.2
      return (s.1, checkEmpty s.2))

/-! ### The operations that combine units -/

/-- An operand of `*`, `/` and `^`: a number with or without a unit, or a unit alone. -/
inductive Arg (U K : Type) where
  | num (v : K) (u : Option (PL U))
  | unit (l : PL U)
  deriving DecidableEq

/-- Lines 110-113 and 131-134 of `basicarithmetic.py`: a unit alone counts as one of it. -/
def Arg.split : Arg U K → K × Option (PL U)
  | .num v u => (v, u)
  | .unit l => (1, some l)

/-- `op_number_multiply` (`basicarithmetic.py:105-124`). -/
def opMultiply : Arg U K → Arg U K → Except Raise (Arg U K)
  | .unit a, .unit b =>
    match newList [(a, 1), (b, 1)] with
    | none => .error (.py "'NoneType' object has no attribute 'no_simplify'")
    | some l => .ok (.unit l)
  | x, y =>
    let v := x.split.1 * y.split.1
    match x.split.2, y.split.2 with
    | some a, some b => .ok (.num v (newList [(a, 1), (b, 1)]))
    | some a, none => .ok (.num v (some a))
    | none, some b => .ok (.num v (some b))
    | none, none => .ok (.num v none)

/-- `op_number_divide` (`basicarithmetic.py:126-147`). -/
def opDivide [DecidableEq K] : Arg U K → Arg U K → Except Raise (Arg U K)
  | .unit a, .unit b =>
    match newList [(a, 1), (b, -1)] with
    | none => .error (.py "'NoneType' object has no attribute 'no_simplify'")
    | some l => .ok (.unit l)
  | x, y =>
    if y.split.1 = 0 then .error (.py "Cannot create Number with denominator of 0")
    else
      let v := x.split.1 / y.split.1
      match x.split.2, y.split.2 with
      | some a, some b => .ok (.num v (newList [(a, 1), (b, -1)]))
      | some a, none => .ok (.num v (some a))
      | none, some b =>
        match power (-1) b with
        | none => .error (.py "'NoneType' object has no attribute 'no_simplify'")
        | some l => .ok (.num v (some l))
      | none, none => .ok (.num v none)

/-- `op_number_power` (`basicarithmetic.py:92-103`) on a number with a unit, for an exponent
without a unit. -/
def opPower (x : K × Option (PL U)) (p : ℚ) : K × Option (PL U) :=
  (pw x.1 p, x.2.bind (power p))

end Normaliser
end MC.Unit

namespace MC.Unit

section Pipeline
variable {U D K : Type} [DecidableEq U] [DecidableEq D] [Field K] [DecidableEq K]
variable (pw : K → ℚ → K) (N : Norm U D K)

/-- A call of a two-operand operation on numbers (`objects/operators.py:171-185`): normalise the
units of the operands, then call the function `f` with the operands and the unit of the result. -/
def callBinary (fuel : ℕ) (multi relative : Bool)
    (f : K × Option (PL U) → K × Option (PL U) → Option (PL U) → Except Raise (Arg U K))
    (x y : K × Option (PL U)) : Option (Except Raise (Arg U K)) :=
  match normaliseInputs pw N fuel multi relative [x, y] with
  | none => none
  | some (.error e) => some (.error e)
  | some (.ok (xs, ru)) =>
    match xs with
    | [x, y] => some (f x y ru)
    | _ => none

/-- `*` on two numbers (`basicarithmetic.py:37-46`, `105-124`). -/
def evalMul (fuel : ℕ) (x y : K × Option (PL U)) : Option (Except Raise (Arg U K)) :=
  callBinary pw N fuel true true (fun x y _ => opMultiply (.num x.1 x.2) (.num y.1 y.2)) x y

/-- `/` on two numbers (`basicarithmetic.py:47-56`, `126-147`). -/
def evalDiv (fuel : ℕ) (x y : K × Option (PL U)) : Option (Except Raise (Arg U K)) :=
  callBinary pw N fuel true true (fun x y _ => opDivide (.num x.1 x.2) (.num y.1 y.2)) x y

/-- `+` on two numbers (`basicarithmetic.py:57-66`, `149-150`, `operators.py:176`, `225-229`): the result
gets the unit of the operands. -/
def evalAdd (fuel : ℕ) (x y : K × Option (PL U)) : Option (Except Raise (Arg U K)) :=
  callBinary pw N fuel false true (fun x y ru => .ok (.num (x.1 + y.1) ru)) x y

/-- `-` on two numbers (`basicarithmetic.py:67-76`, `152-153`). -/
def evalSub (fuel : ℕ) (x y : K × Option (PL U)) : Option (Except Raise (Arg U K)) :=
  callBinary pw N fuel false true (fun x y ru => .ok (.num (x.1 - y.1) ru)) x y

end Pipeline
end MC.Unit
