import Mathlib.Data.Rat.Defs
import Mathlib.Algebra.Field.Rat

/-!
# The international definitions of units

Written from the SI brochure (prefixes, base units, derived units with special names, accepted
units), IEC 80000-13 (binary prefixes), the IAU resolutions (astronomical unit, Julian year), the
international yard and pound agreement and the UK and US laws on volumes; not from the code.

The size of each unit is given by the definition of the unit in terms of others.
-/

namespace MC.Spec.International

/-- The base quantities.  Angles and amounts of data are counted among them, so that an angle is not a
number. -/
def quantities : List String :=
  ["distance", "mass", "time", "electriccurrent", "temperature", "substance", "luminousintensity",
    "angle", "solidangle", "data"]

/-- What a unit is worth: its size in base units, and its powers of the base quantities. -/
structure Worth where
  value : ℚ
  powers : List ℤ
  deriving DecidableEq

/-- How a unit is defined. -/
inductive Origin where
  /-- the unit of a base quantity -/
  | base (quantity : String)
  /-- so many times a product of powers of units -/
  | made (factor : ℚ) (units : List (String × ℤ))

/-- A prefix: name, symbol, factor. -/
structure Prefix where
  name : String
  symbol : String
  factor : ℚ
  deriving DecidableEq

/-- SI brochure, table 7. -/
def metric : List Prefix :=
  [⟨"deca", "da", 10 ^ 1⟩, ⟨"hecto", "h", 10 ^ 2⟩, ⟨"kilo", "k", 10 ^ 3⟩, ⟨"mega", "M", 10 ^ 6⟩,
   ⟨"giga", "G", 10 ^ 9⟩, ⟨"tera", "T", 10 ^ 12⟩, ⟨"peta", "P", 10 ^ 15⟩, ⟨"exa", "E", 10 ^ 18⟩,
   ⟨"zetta", "Z", 10 ^ 21⟩, ⟨"yotta", "Y", 10 ^ 24⟩,
   ⟨"deci", "d", 1 / 10 ^ 1⟩, ⟨"centi", "c", 1 / 10 ^ 2⟩, ⟨"milli", "m", 1 / 10 ^ 3⟩,
   ⟨"micro", "µ", 1 / 10 ^ 6⟩, ⟨"nano", "n", 1 / 10 ^ 9⟩, ⟨"pico", "p", 1 / 10 ^ 12⟩,
   ⟨"femto", "f", 1 / 10 ^ 15⟩, ⟨"atto", "a", 1 / 10 ^ 18⟩, ⟨"zepto", "z", 1 / 10 ^ 21⟩,
   ⟨"yocto", "y", 1 / 10 ^ 24⟩]

/-- IEC 80000-13, table 1. -/
def binary : List Prefix :=
  [⟨"kibi", "Ki", 1024 ^ 1⟩, ⟨"mebi", "Mi", 1024 ^ 2⟩, ⟨"gibi", "Gi", 1024 ^ 3⟩,
   ⟨"tebi", "Ti", 1024 ^ 4⟩, ⟨"pebi", "Pi", 1024 ^ 5⟩, ⟨"exbi", "Ei", 1024 ^ 6⟩,
   ⟨"zebi", "Zi", 1024 ^ 7⟩, ⟨"yobi", "Yi", 1024 ^ 8⟩]

/-- A definition: the names (in small letters) and symbols of a unit, the prefixes used with it, and
what it is. -/
structure Definition where
  names : List String
  symbols : List String
  prefixes : List Prefix
  origin : Origin

/-- The definitions.  A definition uses units defined before it. -/
def definitions : List Definition :=
  -- SI base units; the gram is a thousandth of the base unit
  [⟨["meter", "meters", "metre", "metres"], ["m"], metric, .base "distance"⟩,
   ⟨["kilogram"], ["kg"], [], .base "mass"⟩,
   ⟨["second", "seconds"], ["s"], metric, .base "time"⟩,
   ⟨["ampere", "amperes"], ["A"], metric, .base "electriccurrent"⟩,
   ⟨["kelvin"], ["K"], metric, .base "temperature"⟩,
   ⟨["mole", "moles"], ["mol"], metric, .base "substance"⟩,
   ⟨["candela", "candelas"], ["cd"], metric, .base "luminousintensity"⟩,
   ⟨["radian", "radians"], ["rad"], metric, .base "angle"⟩,
   ⟨["steradian", "steradians"], ["sr"], metric, .base "solidangle"⟩,
   ⟨["bit", "bits"], ["bit"], metric ++ binary, .base "data"⟩,
   ⟨["gram", "grams"], ["g"], metric, .made (1 / 1000) [("kilogram", 1)]⟩,
  -- SI derived units with special names
   ⟨["newton", "newtons"], ["N"], metric, .made 1 [("kilogram", 1), ("meter", 1), ("second", -2)]⟩,
   ⟨["joule", "joules"], ["J"], metric, .made 1 [("newton", 1), ("meter", 1)]⟩,
   ⟨["watt", "watts"], ["W"], metric, .made 1 [("joule", 1), ("second", -1)]⟩,
   ⟨["pascal", "pascals"], ["Pa"], metric, .made 1 [("newton", 1), ("meter", -2)]⟩,
   ⟨["hertz"], ["Hz"], metric, .made 1 [("second", -1)]⟩,
   ⟨["becquerel", "becquerels"], ["Bq"], metric, .made 1 [("second", -1)]⟩,
   ⟨["coulomb", "coulombs"], ["C"], metric, .made 1 [("ampere", 1), ("second", 1)]⟩,
   ⟨["volt", "volts"], ["V"], metric, .made 1 [("watt", 1), ("ampere", -1)]⟩,
   ⟨["farad", "farads"], ["F"], metric, .made 1 [("coulomb", 1), ("volt", -1)]⟩,
   ⟨["ohm", "ohms"], ["Ω"], metric, .made 1 [("volt", 1), ("ampere", -1)]⟩,
   ⟨["siemens"], ["S"], metric, .made 1 [("ohm", -1)]⟩,
   ⟨["weber", "webers"], ["Wb"], metric, .made 1 [("volt", 1), ("second", 1)]⟩,
   ⟨["tesla", "teslas"], ["T"], metric, .made 1 [("weber", 1), ("meter", -2)]⟩,
   ⟨["henry", "henries"], ["H"], metric, .made 1 [("weber", 1), ("ampere", -1)]⟩,
   ⟨["lumen", "lumens"], ["lm"], metric, .made 1 [("candela", 1), ("steradian", 1)]⟩,
   ⟨["lux"], ["lx"], metric, .made 1 [("lumen", 1), ("meter", -2)]⟩,
   ⟨["gray", "grays"], ["Gy"], metric, .made 1 [("joule", 1), ("kilogram", -1)]⟩,
   ⟨["sievert", "sieverts"], ["Sv"], metric, .made 1 [("joule", 1), ("kilogram", -1)]⟩,
   ⟨["katal", "katals"], ["kat"], metric, .made 1 [("mole", 1), ("second", -1)]⟩,
  -- one degree Celsius as a difference of temperatures is one kelvin; a degree Fahrenheit is the
  -- 180th part of what a hundred degrees Celsius are
   ⟨["celsius", "deg c"], ["°C"], [], .made 1 [("kelvin", 1)]⟩,
   ⟨["fahrenheit", "deg f"], ["°F"], [], .made (100 / 180) [("celsius", 1)]⟩,
  -- time: the mean year of the Gregorian calendar
   ⟨["minute", "minutes"], [], [], .made 60 [("second", 1)]⟩,
   ⟨["hour", "hours"], ["h"], [], .made 60 [("minute", 1)]⟩,
   ⟨["day", "days"], [], [], .made 24 [("hour", 1)]⟩,
   ⟨["week", "weeks"], [], [], .made 7 [("day", 1)]⟩,
   ⟨["year", "years"], ["yr"], [], .made (365 + 97 / 400) [("day", 1)]⟩,
   ⟨["month", "months"], [], [], .made (1 / 12) [("year", 1)]⟩,
  -- distances and areas
   ⟨["yard", "yards"], ["yd"], [], .made (9144 / 10000) [("meter", 1)]⟩,
   ⟨["foot", "feet"], ["ft"], [], .made (1 / 3) [("yard", 1)]⟩,
   ⟨["inch", "inches"], ["in"], [], .made (1 / 12) [("foot", 1)]⟩,
   ⟨["mile", "miles"], ["mi"], [], .made 1760 [("yard", 1)]⟩,
   ⟨["nautical mile", "nautical miles"], ["nmi"], [], .made 1852 [("meter", 1)]⟩,
   ⟨["astronomical unit", "astronomical units"], ["au"], [], .made 149597870700 [("meter", 1)]⟩,
  -- light travels 299 792 458 m in a second; a light year is that of a Julian year
   ⟨["lightsecond", "lightseconds"], [], [], .made 299792458 [("meter", 1)]⟩,
   ⟨["lightminute", "lightminutes"], [], [], .made 60 [("lightsecond", 1)]⟩,
   ⟨["lighthour", "lighthours"], [], [], .made 60 [("lightminute", 1)]⟩,
   ⟨["lightday", "lightdays"], [], [], .made 24 [("lighthour", 1)]⟩,
   ⟨["lightweek", "lightweeks"], [], [], .made 7 [("lightday", 1)]⟩,
   ⟨["lightyear", "lightyears"], [], [], .made (365 + 1 / 4) [("lightday", 1)]⟩,
   ⟨["hectare", "hectares"], ["ha"], [], .made 10000 [("meter", 2)]⟩,
   ⟨["acre", "acres"], ["ac"], [], .made 4840 [("yard", 2)]⟩,
  -- masses; the symbol t is left out, since kt would be both the kilotonne and the knot
   ⟨["tonne", "tonnes"], [], metric, .made 1000 [("kilogram", 1)]⟩,
   ⟨["pound", "pounds"], ["lb"], [], .made (45359237 / 100000000) [("kilogram", 1)]⟩,
   ⟨["ounce", "ounces"], ["oz"], [], .made (1 / 16) [("pound", 1)]⟩,
   ⟨["grain", "grains"], ["gr"], [], .made (1 / 7000) [("pound", 1)]⟩,
   ⟨["stone"], ["st"], [], .made 14 [("pound", 1)]⟩,
   ⟨["short ton", "short tons"], [], [], .made 2000 [("pound", 1)]⟩,
   ⟨["long ton", "long tons"], [], [], .made 2240 [("pound", 1)]⟩,
  -- mechanics
   ⟨["knot", "knots"], ["kn", "kt"], [], .made 1 [("nautical mile", 1), ("hour", -1)]⟩,
   ⟨["gee", "gees"], [], [], .made (980665 / 100000) [("meter", 1), ("second", -2)]⟩,
   ⟨["atmosphere", "atmospheres"], ["atm"], [], .made 101325 [("pascal", 1)]⟩,
   ⟨["pound-force per square inch"], ["psi"], [],
      .made 1 [("pound", 1), ("gee", 1), ("inch", -2)]⟩,
  -- volumes
   ⟨["liter", "liters", "litre", "litres"], ["l", "L"], metric, .made (1 / 1000) [("meter", 3)]⟩,
   ⟨["uk gallon", "uk gallons"], [], [], .made (454609 / 100000) [("liter", 1)]⟩,
   ⟨["uk quart", "uk quarts"], [], [], .made (1 / 4) [("uk gallon", 1)]⟩,
   ⟨["uk pint", "uk pints"], [], [], .made (1 / 2) [("uk quart", 1)]⟩,
   ⟨["uk gill", "uk gills"], [], [], .made (1 / 4) [("uk pint", 1)]⟩,
   ⟨["uk fluid ounce", "uk fluid ounces"], [], [], .made (1 / 5) [("uk gill", 1)]⟩,
   ⟨["us gallon", "us gallons"], [], [], .made 231 [("inch", 3)]⟩,
   ⟨["us quart", "us quarts"], [], [], .made (1 / 4) [("us gallon", 1)]⟩,
   ⟨["us pint", "us pints"], [], [], .made (1 / 2) [("us quart", 1)]⟩,
   ⟨["us cup", "us cups"], [], [], .made (1 / 2) [("us pint", 1)]⟩,
   ⟨["us gill", "us gills"], [], [], .made (1 / 2) [("us cup", 1)]⟩,
   ⟨["us fluid ounce", "us fluid ounces"], [], [], .made (1 / 4) [("us gill", 1)]⟩,
   ⟨["us dram", "us drams"], [], [], .made (1 / 8) [("us fluid ounce", 1)]⟩,
   ⟨["byte", "bytes"], ["B"], metric ++ binary, .made 8 [("bit", 1)]⟩]

/-- A power of a unit. -/
def Worth.power (w : Worth) (n : ℤ) : Worth := ⟨w.value ^ n, w.powers.map (n * ·)⟩

/-- A product of units. -/
def Worth.times (v w : Worth) : Worth := ⟨v.value * w.value, List.zipWith (· + ·) v.powers w.powers⟩

/-- No unit. -/
def Worth.one : Worth := ⟨1, quantities.map (fun _ => 0)⟩

/-- What a definition gives, when the units with these names are known. -/
def Origin.worth (known : List (Definition × Worth)) : Origin → Worth
  | .base q => ⟨1, quantities.map (fun r => if r = q then 1 else 0)⟩
  | .made f us => us.foldl (fun w u =>
      match known.find? (fun d => d.1.names.contains u.1) with
      | some d => w.times (d.2.power u.2)
      | none => ⟨0, []⟩) { Worth.one with value := f }

/-- Every definition with what its unit is worth. -/
def worths : List (Definition × Worth) :=
  definitions.foldl (fun known d => known ++ [(d, d.origin.worth known)]) []

/-- The text is a name (in any letter case) or a symbol of a unit worth `w`, perhaps with a prefix. -/
def Means (text : List Char) (w : Worth) : Prop :=
  ∃ d ∈ worths,
    (((∃ n ∈ d.1.names, text.map Char.toLower = n.toList) ∨ (∃ s ∈ d.1.symbols, text = s.toList))
      ∧ w = d.2) ∨
    ∃ p ∈ d.1.prefixes,
      ((∃ n ∈ d.1.names, text.map Char.toLower = p.name.toList ++ n.toList) ∨
        (∃ s ∈ d.1.symbols, text = p.symbol.toList ++ s.toList))
      ∧ w = { d.2 with value := p.factor * d.2.value }

end MC.Spec.International
