import Mathlib.Data.Rat.Defs
import Verif.Model.Units
import Verif.Model.Registry
import Verif.Model.Lexer

/-!
# The shipped unit definitions (`features/unitdefinitions/*.py`)

The table part of this file was written by `tools/units.py`, which reads the class bodies and the
`install` methods.  The order of the registrations is that of the installation of
`unitdefinitions.allunitdefinitions` with both prefix features installed before.

Simplifications: scales are exact rationals (all but `degree` are decimals or quotients of two
decimals in the code; `degree` is the shipped 50 digit value of tau divided by 360); loops over
constant lists are unrolled.
-/

namespace MC.Unit.Table
open MC.Parse (Text)

/-- A prefix: name, symbol, scale (`unitnormaliser.py:23`, `units.py:14-17`). -/
structure Pre where
  name : Option String
  symbol : Option String
  scale : ℚ
  deriving DecidableEq

/-- A subclass of `UnitDefinition` (`units.py:72-79`). -/
structure Cls where
  names : List String
  symbols : List String
  scale : ℚ
  systems : List String
  relevant : List String
  use : Bool
  condense : Bool
  kind : Kind
  deriving DecidableEq

/-- An object of such a class, after `add_unit` gave it its dimension. -/
structure Made where
  cls : Cls
  pre : Option Pre
  dim : String
  systems : List String
  deriving DecidableEq

/-- `UnitDefinition.__init__` (`units.py:14-17`, `81-86`); `systems` is set afterwards by
`data.py:46` and `55`. -/
def Cls.make (c : Cls) (dim : String) (pre : Option Pre) (systems : Option (List String)) : Made :=
  ⟨c, pre, dim, systems.getD c.systems⟩

/-- `names` (`units.py:41-46`). -/
def Made.names (u : Made) : List Text :=
  match u.pre.bind (·.name) with
  | some p => u.cls.names.map (fun n => p.toList ++ n.toList)
  | none => u.cls.names.map String.toList

/-- `symbols` (`units.py:48-53`); a prefix with a name but without a symbol removes the symbols
(`unitnormaliser.py:66-68`). -/
def Made.symbols (u : Made) : List Text :=
  match u.pre with
  | some p =>
    match p.symbol with
    | some s => u.cls.symbols.map (fun n => s.toList ++ n.toList)
    | none => if p.name.isSome then [] else u.cls.symbols.map String.toList
  | none => u.cls.symbols.map String.toList

/-- `unitscale` (`units.py:83-84`). -/
def Made.scale (u : Made) : ℚ :=
  match u.pre with
  | some p => u.cls.scale * p.scale
  | none => u.cls.scale

/-- A registration in an `install` method. -/
inductive Line where
  /-- `add_dimension` with a relationship -/
  | dim (name : String) (rel : List (String × ℤ))
  /-- `add_unit` -/
  | unit (dim : String) (c : Cls) (pre : Option Pre) (systems : Option (List String))
  /-- `add_prefixed_unit` with its bounds -/
  | prefixed (dim : String) (c : Cls) (lo hi : Option ℚ)
  /-- `get_unit(unit).systems.append(system)` -/
  | system (unit system : String)
  /-- `add_ambiguous_unit` -/
  | amb (names symbols units : List String)
  /-- `add_multiunit` -/
  | multi (dim : String) (units : List (String × ℤ))

/-- `absorbeddose.py:29-34` -/
def gray : Cls :=
  ⟨["grays", "gray"], ["Gy"], 1, ["si"], [], true, false, .scale⟩
/-- `acceleration.py:33-38` -/
def gee : Cls :=
  ⟨["gees", "gee"], [], 196133 / 20000, [], [], true, false, .scale⟩
/-- `angle.py:29-33` -/
def radian : Cls :=
  ⟨["radians", "radian"], ["rad"], 1, ["si"], [], true, true, .scale⟩
/-- `angle.py:35-40` -/
def degree : Cls :=
  ⟨["degrees", "degree"], ["°", "deg"], 314159265358979323846264338327950288419716939937511 / 18000000000000000000000000000000000000000000000000000, ["si"], [], true, true, .scale⟩
/-- `area.py:29-35` -/
def acre : Cls :=
  ⟨["acres", "acre"], ["ac"], 40469 / 10, ["us", "uk"], [], true, false, .scale⟩
/-- `area.py:37-43` -/
def hectare : Cls :=
  ⟨["hectares", "hectare"], ["ha"], 10000, ["si"], [], true, false, .scale⟩
/-- `capacitance.py:31-35` -/
def farad : Cls :=
  ⟨["farads", "farad"], ["F"], 1, ["si"], [], true, true, .scale⟩
/-- `catalyticactivity.py:29-33` -/
def katal : Cls :=
  ⟨["katals", "katal"], ["kat"], 1, ["si"], [], true, true, .scale⟩
/-- `data.py:59-64` -/
def bit : Cls :=
  ⟨["bits", "bit"], ["bit"], 1, ["si"], [], true, false, .scale⟩
/-- `data.py:66-72` -/
def byte : Cls :=
  ⟨["bytes", "byte"], ["B"], 8, ["si"], [], true, false, .scale⟩
/-- `distance.py:44-48` -/
def meter : Cls :=
  ⟨["meters", "meter", "metres", "metre"], ["m"], 1, ["si"], [], true, true, .scale⟩
/-- `distance.py:50-54` -/
def lightYear : Cls :=
  ⟨["lightyears", "lightyear"], [], 9460730472580800, ["asu"], [], true, true, .scale⟩
/-- `distance.py:56-61` -/
def lightWeek : Cls :=
  ⟨["lightweeks", "lightweek"], [], 181314478598400, ["asu"], [], false, true, .scale⟩
/-- `distance.py:63-67` -/
def lightDay : Cls :=
  ⟨["lightdays", "lightday"], [], 25902068371200, ["asu"], [], true, true, .scale⟩
/-- `distance.py:69-73` -/
def lightHour : Cls :=
  ⟨["lighthours", "lighthour"], [], 1079252848800, ["asu"], [], true, true, .scale⟩
/-- `distance.py:75-79` -/
def lightMinute : Cls :=
  ⟨["lightminutes", "lightminute"], [], 17987547480, ["asu"], [], true, true, .scale⟩
/-- `distance.py:81-85` -/
def lightSecond : Cls :=
  ⟨["lightseconds", "lightsecond"], [], 299792458, ["asu"], [], true, true, .scale⟩
/-- `distance.py:87-92` -/
def astronomicalUnit : Cls :=
  ⟨["astronomical units", "astronomical unit"], ["au"], 149597870700, ["asu"], [], true, true, .scale⟩
/-- `distance.py:94-99` -/
def parsec : Cls :=
  ⟨["parsecs", "parsec"], ["pc"], 30856775810000000, ["asu"], [], true, true, .scale⟩
/-- `distance.py:101-106` -/
def inch : Cls :=
  ⟨["inches", "inch"], ["in"], 127 / 5000, ["us", "uk"], [], true, true, .scale⟩
/-- `distance.py:108-113` -/
def feet : Cls :=
  ⟨["feet", "foot"], ["ft"], 381 / 1250, ["us", "uk"], [], true, true, .scale⟩
/-- `distance.py:115-120` -/
def yard : Cls :=
  ⟨["yards", "yard"], ["yd"], 1143 / 1250, ["us", "uk"], [], true, true, .scale⟩
/-- `distance.py:122-127` -/
def mile : Cls :=
  ⟨["miles", "mile"], ["mi"], 201168 / 125, ["us", "uk"], [], true, true, .scale⟩
/-- `distance.py:129-134` -/
def nauticalMile : Cls :=
  ⟨["nautical miles", "nautical mile"], ["nmi"], 1852, ["nautical"], [], true, true, .scale⟩
/-- `electricalconductance.py:31-35` -/
def siemens : Cls :=
  ⟨["siemens", "siemens"], ["S"], 1, ["si"], [], true, true, .scale⟩
/-- `electricalpotential.py:31-35` -/
def volt : Cls :=
  ⟨["volts", "volt"], ["V"], 1, ["si"], [], true, true, .scale⟩
/-- `electriccharge.py:29-33` -/
def coulomb : Cls :=
  ⟨["coulombs", "coulomb"], ["C"], 1, ["si"], [], true, true, .scale⟩
/-- `electriccurrent.py:27-31` -/
def ampere : Cls :=
  ⟨["amperes", "ampere"], ["A"], 1, ["si"], [], true, true, .scale⟩
/-- `energy.py:30-34` -/
def joule : Cls :=
  ⟨["joules", "joule"], ["J"], 1, ["si"], [], true, true, .scale⟩
/-- `equivalentdose.py:29-34` -/
def sievert : Cls :=
  ⟨["sieverts", "sievert"], ["Sv"], 1, ["si"], [], true, false, .scale⟩
/-- `force.py:30-34` -/
def newton : Cls :=
  ⟨["newtons", "newton"], ["N"], 1, ["si"], [], true, true, .scale⟩
/-- `frequency.py:28-32` -/
def hertz : Cls :=
  ⟨["hertz", "hertz"], ["Hz"], 1, ["si"], [], true, true, .scale⟩
/-- `illuminance.py:30-34` -/
def lux : Cls :=
  ⟨["lux", "lux"], ["lx"], 1, ["si"], [], true, true, .scale⟩
/-- `inductance.py:31-35` -/
def henry : Cls :=
  ⟨["henries", "henry"], ["H"], 1, ["si"], [], true, true, .scale⟩
/-- `luminousflux.py:29-33` -/
def lumen : Cls :=
  ⟨["lumens", "lumen"], ["lm"], 1, ["si"], [], true, true, .scale⟩
/-- `luminousintensity.py:27-31` -/
def candela : Cls :=
  ⟨["candelas", "candela"], ["cd"], 1, ["si"], [], true, true, .scale⟩
/-- `magneticflux.py:31-35` -/
def weber : Cls :=
  ⟨["webers", "weber"], ["Wb"], 1, ["si"], [], true, true, .scale⟩
/-- `magneticfluxdensity.py:30-34` -/
def telsa : Cls :=
  ⟨["teslas", "tesla"], ["T"], 1, ["si"], [], true, true, .scale⟩
/-- `mass.py:37-42` -/
def gram : Cls :=
  ⟨["grams", "gram"], ["g"], 1 / 1000, ["si"], [], true, true, .scale⟩
/-- `mass.py:44-48` -/
def tonne : Cls :=
  ⟨["tonnes", "tonne"], [], 1000, ["si"], [], true, true, .scale⟩
/-- `mass.py:50-55` -/
def grain : Cls :=
  ⟨["grains", "grain"], ["gr"], 6479891 / 100000000000, ["us", "uk"], [], true, true, .scale⟩
/-- `mass.py:57-62` -/
def ounce : Cls :=
  ⟨["ounces", "ounce"], ["oz"], 45359237 / 1600000000, ["us", "uk"], [], true, true, .scale⟩
/-- `mass.py:64-69` -/
def pound : Cls :=
  ⟨["pounds", "pound"], ["lb"], 45359237 / 100000000, ["us", "uk"], [], true, true, .scale⟩
/-- `mass.py:71-76` -/
def stone : Cls :=
  ⟨["stone", "stone"], ["st"], 317514659 / 50000000, ["uk"], [], true, true, .scale⟩
/-- `mass.py:82-86` -/
def shortTon : Cls :=
  ⟨["short tons", "short ton"], [], 45359237 / 50000, ["us"], [], true, true, .scale⟩
/-- `mass.py:88-92` -/
def longTon : Cls :=
  ⟨["long tons", "long ton"], [], 317514659 / 312500, ["uk"], [], true, true, .scale⟩
/-- `power.py:30-34` -/
def watt : Cls :=
  ⟨["watts", "watt"], ["W"], 1, ["si"], [], true, true, .scale⟩
/-- `pressure.py:33-37` -/
def pascal : Cls :=
  ⟨["pascals", "pascal"], ["Pa"], 1, ["si"], [], true, true, .scale⟩
/-- `pressure.py:39-43` -/
def atmosphere : Cls :=
  ⟨["atmospheres", "atmosphere"], ["atm"], 101325, [], [], true, true, .scale⟩
/-- `pressure.py:45-50` -/
def pSI : Cls :=
  ⟨["pound-force per square inch", "pound-force per square inch"], ["psi"], 6894757 / 1000, ["us", "uk"], [], true, true, .scale⟩
/-- `radioactivity.py:28-33` -/
def becquerel : Cls :=
  ⟨["becquerels", "becquerel"], ["Bq"], 1, ["si"], [], true, false, .scale⟩
/-- `resistance.py:31-35` -/
def ohm : Cls :=
  ⟨["ohms", "ohm"], ["Ω"], 1, ["si"], [], true, true, .scale⟩
/-- `solidangle.py:27-31` -/
def steradian : Cls :=
  ⟨["steradians", "steradian"], ["sr"], 1, ["si"], [], true, true, .scale⟩
/-- `substance.py:27-31` -/
def mole : Cls :=
  ⟨["moles", "mole"], ["mol"], 1, ["si"], [], true, true, .scale⟩
/-- `temperature.py:32-36` -/
def kelvin : Cls :=
  ⟨["kelvin", "kelvin"], ["K"], 1, ["si"], [], true, true, .scale⟩
/-- `temperature.py:39-52` -/
def celsius : Cls :=
  ⟨["Celsius", "Celsius", "deg C"], ["°C"], 1, ["si"], [], true, true, .celsius⟩
/-- `temperature.py:55-68` -/
def fahrenheit : Cls :=
  ⟨["Fahrenheit", "Fahrenheit", "deg F"], ["°F"], 1, ["us", "uk"], [], true, true, .fahrenheit⟩
/-- `time.py:36-40` -/
def second : Cls :=
  ⟨["seconds", "second"], ["s"], 1, ["si", "gregorian"], [], true, true, .scale⟩
/-- `time.py:42-46` -/
def minute : Cls :=
  ⟨["minutes", "minute"], [], 60, ["gregorian"], [], true, true, .scale⟩
/-- `time.py:48-54` -/
def hour : Cls :=
  ⟨["hours", "hour"], ["h"], 3600, ["gregorian"], ["us", "uk", "nautical"], true, true, .scale⟩
/-- `time.py:56-60` -/
def day : Cls :=
  ⟨["days", "day"], [], 86400, ["gregorian"], [], true, true, .scale⟩
/-- `time.py:62-67` -/
def week : Cls :=
  ⟨["weeks", "week"], [], 604800, ["gregorian"], [], false, true, .scale⟩
/-- `time.py:69-73` -/
def month : Cls :=
  ⟨["months", "month"], [], 2629746, ["gregorian"], [], true, true, .scale⟩
/-- `time.py:75-80` -/
def year : Cls :=
  ⟨["years", "year"], ["yr"], 31556952, ["gregorian"], [], true, true, .scale⟩
/-- `velocity.py:33-38` -/
def knot : Cls :=
  ⟨["knots", "knot"], ["kn", "kt"], 463 / 900, ["nautical"], [], true, true, .scale⟩
/-- `volume.py:48-53` -/
def liter : Cls :=
  ⟨["liters", "liter", "litres", "litre"], ["l"], 1 / 1000, ["si"], [], true, true, .scale⟩
/-- `volume.py:55-59` -/
def uKFluidOunce : Cls :=
  ⟨["UK fluid ounces", "UK fluid ounce"], [], 454609 / 16000000000, ["uk"], [], true, true, .scale⟩
/-- `volume.py:61-66` -/
def uKGill : Cls :=
  ⟨["UK gills", "UK gill"], [], 454609 / 3200000000, ["uk"], [], false, true, .scale⟩
/-- `volume.py:68-72` -/
def uKPint : Cls :=
  ⟨["UK pints", "UK pint"], [], 454609 / 800000000, ["uk"], [], true, true, .scale⟩
/-- `volume.py:74-79` -/
def uKQuart : Cls :=
  ⟨["UK quarts", "UK quart"], [], 454609 / 400000000, ["uk"], [], false, true, .scale⟩
/-- `volume.py:81-85` -/
def uKGallon : Cls :=
  ⟨["UK gallons", "UK gallon"], [], 454609 / 100000000, ["uk"], [], true, true, .scale⟩
/-- `volume.py:87-91` -/
def uSDram : Cls :=
  ⟨["US drams", "US dram"], [], 473176473 / 256000000000000, ["us"], [], true, true, .scale⟩
/-- `volume.py:93-97` -/
def uSFluidOunce : Cls :=
  ⟨["US fluid ounces", "US fluid ounce"], [], 473176473 / 16000000000000, ["us"], [], true, true, .scale⟩
/-- `volume.py:99-104` -/
def uSGill : Cls :=
  ⟨["US gills", "US gill"], [], 473176473 / 4000000000000, ["us"], [], false, true, .scale⟩
/-- `volume.py:106-110` -/
def uSCup : Cls :=
  ⟨["US cups", "US cup"], [], 473176473 / 2000000000000, ["us"], [], true, true, .scale⟩
/-- `volume.py:112-116` -/
def uSPint : Cls :=
  ⟨["US pints", "US pint"], [], 473176473 / 1000000000000, ["us"], [], true, true, .scale⟩
/-- `volume.py:118-122` -/
def uSQuart : Cls :=
  ⟨["US quarts", "US quart"], [], 473176473 / 500000000000, ["us"], [], true, true, .scale⟩
/-- `volume.py:124-128` -/
def uSGallon : Cls :=
  ⟨["US gallons", "US gallon"], [], 473176473 / 125000000000, ["us"], [], true, true, .scale⟩

/-- `units/units.py:31-33`, `basicunitprefixes.py:26-31`, `advancedunitprefixes.py:26-35`. -/
def prefixes : List Pre :=
  [⟨none, none, 1⟩,
   ⟨(some "micro"), (some "µ"), 1 / 1000000⟩,
   ⟨(some "milli"), (some "m"), 1 / 1000⟩,
   ⟨(some "kilo"), (some "k"), 1000⟩,
   ⟨(some "mega"), (some "M"), 1000000⟩,
   ⟨(some "atto"), (some "a"), 1 / 1000000000000000000⟩,
   ⟨(some "femto"), (some "f"), 1 / 1000000000000000⟩,
   ⟨(some "pico"), (some "p"), 1 / 1000000000000⟩,
   ⟨(some "nano"), (some "n"), 1 / 1000000000⟩,
   ⟨(some "giga"), (some "G"), 1000000000⟩,
   ⟨(some "tera"), (some "T"), 1000000000000⟩,
   ⟨(some "peta"), (some "P"), 1000000000000000⟩,
   ⟨(some "exa"), (some "E"), 1000000000000000000⟩]

/-- `distance.py:22-41` -/
def lines_distance : List Line :=
  [.dim "distance" [],
   .prefixed "distance" meter none (some 1000),
   .unit "distance" meter (some ⟨(some "centi"), (some "c"), 1 / 100⟩) none,
   .unit "distance" lightYear none none,
   .unit "distance" lightWeek none none,
   .unit "distance" lightDay none none,
   .unit "distance" lightHour none none,
   .unit "distance" lightMinute none none,
   .unit "distance" lightSecond none none,
   .unit "distance" astronomicalUnit none none,
   .prefixed "distance" parsec (some 1) none,
   .unit "distance" inch none none,
   .unit "distance" feet none none,
   .unit "distance" yard none none,
   .unit "distance" mile none none,
   .unit "distance" nauticalMile none none]

/-- `time.py:22-33` -/
def lines_time : List Line :=
  [.dim "time" [],
   .prefixed "time" second none (some 1),
   .unit "time" minute none none,
   .unit "time" hour none none,
   .unit "time" day none none,
   .unit "time" week none none,
   .unit "time" month none none,
   .unit "time" year none none]

/-- `absorbeddose.py:22-26` -/
def lines_absorbeddose : List Line :=
  [.dim "absorbeddose" [("distance", 2), ("time", -2)],
   .prefixed "absorbeddose" gray none none]

/-- `acceleration.py:22-28` -/
def lines_acceleration : List Line :=
  [.dim "acceleration" [("distance", 1), ("time", -2)],
   .unit "acceleration" gee none none,
   .multi "acceleration" [("meter", 1), ("second", -2)]]

/-- `angle.py:23-26` -/
def lines_angle : List Line :=
  [.dim "angle" [],
   .unit "angle" radian none none,
   .unit "angle" degree none none]

/-- `area.py:22-26` -/
def lines_area : List Line :=
  [.dim "area" [("distance", 2)],
   .unit "area" acre none none,
   .unit "area" hectare none none]

/-- `electriccurrent.py:22-24` -/
def lines_electriccurrent : List Line :=
  [.dim "electriccurrent" [],
   .prefixed "electriccurrent" ampere none none]

/-- `mass.py:22-34` -/
def lines_mass : List Line :=
  [.dim "mass" [],
   .prefixed "mass" gram none (some 1000),
   .prefixed "mass" tonne (some 1) none,
   .unit "mass" grain none none,
   .unit "mass" ounce none none,
   .unit "mass" pound none none,
   .unit "mass" stone none none,
   .unit "mass" shortTon none none,
   .unit "mass" longTon none none,
   .amb ["tons", "ton"] [] ["short ton", "long ton"]]

/-- `capacitance.py:22-28` -/
def lines_capacitance : List Line :=
  [.dim "capacitance" [("electriccurrent", 2), ("time", 4), ("mass", -1), ("distance", -2)],
   .prefixed "capacitance" farad none none]

/-- `substance.py:22-24` -/
def lines_substance : List Line :=
  [.dim "substance" [],
   .prefixed "substance" mole none none]

/-- `catalyticactivity.py:22-26` -/
def lines_catalyticactivity : List Line :=
  [.dim "catalyticactivity" [("substance", 1), ("time", -1)],
   .prefixed "catalyticactivity" katal none none]

/-- `data.py:22-56` -/
def lines_data : List Line :=
  [.dim "data" [],
   .prefixed "data" bit (some 1) none,
   .system "bits" "iec",
   .unit "data" bit (some ⟨(some "zetta"), (some "Z"), 1000000000000000000000⟩) none,
   .unit "data" bit (some ⟨(some "yotta"), (some "Y"), 1000000000000000000000000⟩) none,
   .unit "data" bit (some ⟨(some "kibi"), (some "ki"), 1024⟩) (some ["iec"]),
   .unit "data" bit (some ⟨(some "mebi"), (some "Mi"), 1048576⟩) (some ["iec"]),
   .unit "data" bit (some ⟨(some "gibi"), (some "Gi"), 1073741824⟩) (some ["iec"]),
   .unit "data" bit (some ⟨(some "tebi"), (some "Ti"), 1099511627776⟩) (some ["iec"]),
   .unit "data" bit (some ⟨(some "pebi"), (some "Pi"), 1125899906842624⟩) (some ["iec"]),
   .unit "data" bit (some ⟨(some "exbi"), (some "Ei"), 1152921504606846976⟩) (some ["iec"]),
   .unit "data" bit (some ⟨(some "zebi"), (some "Zi"), 1180591620717411303424⟩) (some ["iec"]),
   .unit "data" bit (some ⟨(some "yobi"), (some "Yi"), 1208925819614629174706176⟩) (some ["iec"]),
   .prefixed "data" byte (some 1) none,
   .system "bytes" "iec",
   .unit "data" byte (some ⟨(some "zetta"), (some "Z"), 1000000000000000000000⟩) none,
   .unit "data" byte (some ⟨(some "yotta"), (some "Y"), 1000000000000000000000000⟩) none,
   .unit "data" byte (some ⟨(some "kibi"), (some "ki"), 1024⟩) (some ["iec"]),
   .unit "data" byte (some ⟨(some "mebi"), (some "Mi"), 1048576⟩) (some ["iec"]),
   .unit "data" byte (some ⟨(some "gibi"), (some "Gi"), 1073741824⟩) (some ["iec"]),
   .unit "data" byte (some ⟨(some "tebi"), (some "Ti"), 1099511627776⟩) (some ["iec"]),
   .unit "data" byte (some ⟨(some "pebi"), (some "Pi"), 1125899906842624⟩) (some ["iec"]),
   .unit "data" byte (some ⟨(some "exbi"), (some "Ei"), 1152921504606846976⟩) (some ["iec"]),
   .unit "data" byte (some ⟨(some "zebi"), (some "Zi"), 1180591620717411303424⟩) (some ["iec"]),
   .unit "data" byte (some ⟨(some "yobi"), (some "Yi"), 1208925819614629174706176⟩) (some ["iec"])]

/-- `electricalconductance.py:22-28` -/
def lines_electricalconductance : List Line :=
  [.dim "electricalconductance" [("time", 3), ("electriccurrent", 2), ("mass", -1), ("distance", -2)],
   .prefixed "electricalconductance" siemens none none]

/-- `electricalpotential.py:22-28` -/
def lines_electricalpotential : List Line :=
  [.dim "electricalpotential" [("mass", 1), ("distance", 2), ("time", -3), ("electriccurrent", -1)],
   .prefixed "electricalpotential" volt none none]

/-- `electriccharge.py:22-26` -/
def lines_electriccharge : List Line :=
  [.dim "electriccharge" [("electriccurrent", 1), ("time", 1)],
   .prefixed "electriccharge" coulomb none none]

/-- `energy.py:22-27` -/
def lines_energy : List Line :=
  [.dim "energy" [("mass", 1), ("distance", 2), ("time", -2)],
   .prefixed "energy" joule none none]

/-- `equivalentdose.py:22-26` -/
def lines_equivalentdose : List Line :=
  [.dim "equivalentdose" [("distance", 2), ("time", -2)],
   .prefixed "equivalentdose" sievert none none]

/-- `force.py:22-27` -/
def lines_force : List Line :=
  [.dim "force" [("mass", 1), ("distance", 1), ("time", -2)],
   .prefixed "force" newton none none]

/-- `frequency.py:22-25` -/
def lines_frequency : List Line :=
  [.dim "frequency" [("time", -1)],
   .prefixed "frequency" hertz none none]

/-- `luminousintensity.py:22-24` -/
def lines_luminousintensity : List Line :=
  [.dim "luminousintensity" [],
   .prefixed "luminousintensity" candela none none]

/-- `solidangle.py:22-24` -/
def lines_solidangle : List Line :=
  [.dim "solidangle" [],
   .unit "solidangle" steradian none none]

/-- `illuminance.py:22-27` -/
def lines_illuminance : List Line :=
  [.dim "illuminance" [("luminousintensity", 1), ("solidangle", 1), ("distance", -2)],
   .prefixed "illuminance" lux none none]

/-- `inductance.py:22-28` -/
def lines_inductance : List Line :=
  [.dim "inductance" [("mass", 1), ("distance", 2), ("time", -2), ("electriccurrent", -2)],
   .prefixed "inductance" henry none none]

/-- `luminousflux.py:22-26` -/
def lines_luminousflux : List Line :=
  [.dim "luminousflux" [("luminousintensity", 1), ("solidangle", 1)],
   .prefixed "luminousflux" lumen none none]

/-- `magneticflux.py:22-28` -/
def lines_magneticflux : List Line :=
  [.dim "magneticflux" [("mass", 1), ("distance", 2), ("time", -2), ("electriccurrent", -1)],
   .prefixed "magneticflux" weber none none]

/-- `magneticfluxdensity.py:22-27` -/
def lines_magneticfluxdensity : List Line :=
  [.dim "magneticfluxdensity" [("mass", 1), ("time", -2), ("electriccurrent", -1)],
   .prefixed "magneticfluxdensity" telsa none none]

/-- `power.py:22-27` -/
def lines_power : List Line :=
  [.dim "power" [("mass", 1), ("distance", 2), ("time", -3)],
   .prefixed "power" watt none none]

/-- `pressure.py:22-30` -/
def lines_pressure : List Line :=
  [.dim "pressure" [("mass", 1), ("distance", -1), ("time", -2)],
   .prefixed "pressure" pascal none none,
   .unit "pressure" atmosphere none none,
   .unit "pressure" pSI none none]

/-- `radioactivity.py:22-25` -/
def lines_radioactivity : List Line :=
  [.dim "radioactivity" [("time", -1)],
   .prefixed "radioactivity" becquerel none none]

/-- `resistance.py:22-28` -/
def lines_resistance : List Line :=
  [.dim "resistance" [("mass", 1), ("distance", 2), ("time", -3), ("electriccurrent", -2)],
   .prefixed "resistance" ohm none none]

/-- `temperature.py:22-29` -/
def lines_temperature : List Line :=
  [.dim "temperature" [],
   .prefixed "temperature" kelvin none none,
   .unit "temperature" celsius none none,
   .unit "temperature" fahrenheit none none]

/-- `velocity.py:22-28` -/
def lines_velocity : List Line :=
  [.dim "velocity" [("distance", 1), ("time", -1)],
   .unit "velocity" knot none none,
   .multi "velocity" [("meter", 1), ("second", -1)]]

/-- `volume.py:22-45` -/
def lines_volume : List Line :=
  [.dim "volume" [("distance", 3)],
   .prefixed "volume" liter none (some 1),
   .unit "volume" liter (some ⟨(some "centi"), (some "c"), 1 / 100⟩) none,
   .unit "volume" uKFluidOunce none none,
   .unit "volume" uKGill none none,
   .unit "volume" uKPint none none,
   .unit "volume" uKQuart none none,
   .unit "volume" uKGallon none none,
   .unit "volume" uSDram none none,
   .unit "volume" uSFluidOunce none none,
   .unit "volume" uSGill none none,
   .unit "volume" uSCup none none,
   .unit "volume" uSPint none none,
   .unit "volume" uSQuart none none,
   .unit "volume" uSGallon none none,
   .amb ["fluid ounces", "fluid ounce"] ["floz", "fl.oz"] ["US fluid ounce", "UK fluid ounce"],
   .amb ["pints", "pint"] ["pt"] ["US pint", "UK pint"],
   .amb ["quarts", "quart"] [] ["US quart", "UK quart"],
   .amb ["gallons", "gallon"] ["gal"] ["US gallon", "UK gallon"]]

/-- All registrations in the order of installation (`allunitdefinitions.py:25-60`,
`modularcalculator.py:77-117`). -/
def lines : List Line :=
  lines_distance ++
  lines_time ++
  lines_absorbeddose ++
  lines_acceleration ++
  lines_angle ++
  lines_area ++
  lines_electriccurrent ++
  lines_mass ++
  lines_capacitance ++
  lines_substance ++
  lines_catalyticactivity ++
  lines_data ++
  lines_electricalconductance ++
  lines_electricalpotential ++
  lines_electriccharge ++
  lines_energy ++
  lines_equivalentdose ++
  lines_force ++
  lines_frequency ++
  lines_luminousintensity ++
  lines_solidangle ++
  lines_illuminance ++
  lines_inductance ++
  lines_luminousflux ++
  lines_magneticflux ++
  lines_magneticfluxdensity ++
  lines_power ++
  lines_pressure ++
  lines_radioactivity ++
  lines_resistance ++
  lines_temperature ++
  lines_velocity ++
  lines_volume

end MC.Unit.Table
