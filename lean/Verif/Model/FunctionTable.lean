import Verif.Model.Parse

/-!
# The shipped functions

Generated by `tools/funcs.py` from the source: the functions that are entered in `calculator.funcs` with a
literal name (`features/*/*.py`, the lines are given), and the calls of `add_func` in
`features/numerical/specialfunctions.py:39-223`.
-/

namespace MC.Functions
open MC.Parse (Text)

/-- A function with its least and greatest number of parameters. -/
structure Row where
  name : Text
  least : ℕ
  most : ℕ

/-- The arguments of `add_func` (`specialfunctions.py:226`): the name, the number of parameters, the names of
the outputs, and whether it is `func_int_params`. -/
structure SpecialRow where
  name : Text
  params : ℕ
  outs : Option (List Text)
  ints : Bool

/-- The functions with a literal name. -/
def rows : List Row := [
  ⟨"concat".toList, 2, 2⟩ /- arrayfunctions.py:29-37 -/,
  ⟨"element".toList, 2, 2⟩ /- arrayfunctions.py:39-46 -/,
  ⟨"filter".toList, 2, 2⟩ /- arrayfunctions.py:50-57 -/,
  ⟨"count".toList, 1, 1⟩ /- arrayfunctions.py:61-69 -/,
  ⟨"sort".toList, 1, 1⟩ /- arrayfunctions.py:71-79 -/,
  ⟨"reverse".toList, 1, 1⟩ /- arrayfunctions.py:81-89 -/,
  ⟨"dateformat".toList, 1, 1⟩ /- datefunctions.py:63-71 -/,
  ⟨"dateadd".toList, 2, 2⟩ /- datefunctions.py:74-81 -/,
  ⟨"datesubtract".toList, 2, 2⟩ /- datefunctions.py:87-94 -/,
  ⟨"datedifference".toList, 2, 3⟩ /- datefunctions.py:100-107 -/,
  ⟨"now".toList, 0, 0⟩ /- datefunctions.py:111-118 -/,
  ⟨"base".toList, 2, 2⟩ /- arbitrarybasenumbers.py:31-39 -/,
  ⟨"bin".toList, 1, 1⟩ /- binarynumbers.py:34-42 -/,
  ⟨"dec".toList, 1, 1⟩ /- decimalfunction.py:28-36 -/,
  ⟨"scientific".toList, 1, 2⟩ /- expnumbers.py:41-49 -/,
  ⟨"hex".toList, 1, 1⟩ /- hexadecimalnumbers.py:34-42 -/,
  ⟨"abs".toList, 1, 1⟩ /- numericalfunctions.py:33-41 -/,
  ⟨"floor".toList, 1, 2⟩ /- numericalfunctions.py:43-51 -/,
  ⟨"ceil".toList, 1, 2⟩ /- numericalfunctions.py:54-62 -/,
  ⟨"round".toList, 1, 2⟩ /- numericalfunctions.py:65-73 -/,
  ⟨"fact".toList, 1, 1⟩ /- numericalfunctions.py:76-84 -/,
  ⟨"exp".toList, 1, 1⟩ /- numericalfunctions.py:86-94 -/,
  ⟨"log".toList, 1, 2⟩ /- numericalfunctions.py:96-104 -/,
  ⟨"lcm".toList, 2, 2⟩ /- numericalfunctions.py:106-114 -/,
  ⟨"gcd".toList, 2, 2⟩ /- numericalfunctions.py:116-124 -/,
  ⟨"oct".toList, 1, 1⟩ /- octalnumbers.py:34-42 -/,
  ⟨"sum".toList, 1, 1⟩ /- statisticalfunctions.py:31-39 -/,
  ⟨"min".toList, 1, 1⟩ /- statisticalfunctions.py:41-49 -/,
  ⟨"max".toList, 1, 1⟩ /- statisticalfunctions.py:51-59 -/,
  ⟨"mean".toList, 1, 1⟩ /- statisticalfunctions.py:61-69 -/,
  ⟨"median".toList, 1, 1⟩ /- statisticalfunctions.py:71-79 -/,
  ⟨"mode".toList, 1, 1⟩ /- statisticalfunctions.py:81-89 -/,
  ⟨"stdev".toList, 1, 1⟩ /- statisticalfunctions.py:91-99 -/,
  ⟨"sin".toList, 1, 1⟩ /- trigonometryfunctions.py:31-39 -/,
  ⟨"cos".toList, 1, 1⟩ /- trigonometryfunctions.py:40-48 -/,
  ⟨"tan".toList, 1, 1⟩ /- trigonometryfunctions.py:49-57 -/,
  ⟨"asin".toList, 1, 1⟩ /- trigonometryfunctions.py:58-66 -/,
  ⟨"acos".toList, 1, 1⟩ /- trigonometryfunctions.py:67-75 -/,
  ⟨"atan".toList, 1, 1⟩ /- trigonometryfunctions.py:76-84 -/,
  ⟨"sinh".toList, 1, 1⟩ /- trigonometryfunctions.py:85-93 -/,
  ⟨"cosh".toList, 1, 1⟩ /- trigonometryfunctions.py:94-102 -/,
  ⟨"tanh".toList, 1, 1⟩ /- trigonometryfunctions.py:103-111 -/,
  ⟨"asinh".toList, 1, 1⟩ /- trigonometryfunctions.py:112-120 -/,
  ⟨"acosh".toList, 1, 1⟩ /- trigonometryfunctions.py:121-129 -/,
  ⟨"atanh".toList, 1, 1⟩ /- trigonometryfunctions.py:130-138 -/,
  ⟨"reset".toList, 0, 0⟩ /- assignmentfunctions.py:30-37 -/,
  ⟨"delete".toList, 1, 1⟩ /- assignmentfunctions.py:38-45 -/,
  ⟨"regexget".toList, 2, 3⟩ /- regex.py:51-58 -/,
  ⟨"regexsplit".toList, 2, 2⟩ /- regex.py:62-70 -/,
  ⟨"regexsub".toList, 3, 4⟩ /- regex.py:72-79 -/,
  ⟨"regexcount".toList, 2, 2⟩ /- regex.py:83-90 -/,
  ⟨"split".toList, 2, 2⟩ /- stringarrayfunctions.py:30-38 -/,
  ⟨"join".toList, 1, 2⟩ /- stringarrayfunctions.py:40-47 -/,
  ⟨"length".toList, 1, 1⟩ /- stringfunctions.py:30-38 -/,
  ⟨"lower".toList, 1, 1⟩ /- stringfunctions.py:40-48 -/,
  ⟨"upper".toList, 1, 1⟩ /- stringfunctions.py:50-58 -/,
  ⟨"lstrip".toList, 2, 2⟩ /- stringfunctions.py:60-68 -/,
  ⟨"rstrip".toList, 2, 2⟩ /- stringfunctions.py:70-78 -/,
  ⟨"strip".toList, 2, 2⟩ /- stringfunctions.py:80-88 -/,
  ⟨"find".toList, 2, 2⟩ /- stringfunctions.py:90-98 -/,
  ⟨"replace".toList, 3, 3⟩ /- stringfunctions.py:100-108 -/,
  ⟨"substr".toList, 2, 3⟩ /- stringfunctions.py:110-117 -/,
  ⟨"format".toList, 1, 2⟩ /- unitfunctions.py:30-37 -/,
  ⟨"compact".toList, 1, 1⟩ /- unitfunctions.py:42-49 -/]

/-- The calls of `add_func` (`specialfunctions.py:39-223`). -/
def specialRows : List SpecialRow := [
  ⟨"airy".toList, 1, some ["Ai".toList, "Aip".toList, "Bi".toList, "Bip".toList], false⟩ /- 39 -/,
  ⟨"airye".toList, 1, some ["eAi".toList, "eAip".toList, "eBi".toList, "eBip".toList], false⟩ /- 40 -/,
  ⟨"itairy".toList, 1, some ["Apt".toList, "Bpt".toList, "Ant".toList, "Bnt".toList], false⟩ /- 41 -/,
  ⟨"ellipj".toList, 2, some ["sn".toList, "cn".toList, "dn".toList, "ph".toList], false⟩ /- 43 -/,
  ⟨"ellipk".toList, 1, none, false⟩ /- 44 -/,
  ⟨"ellipkm1".toList, 1, none, false⟩ /- 45 -/,
  ⟨"ellipkinc".toList, 2, none, false⟩ /- 46 -/,
  ⟨"ellipe".toList, 1, none, false⟩ /- 47 -/,
  ⟨"ellipeinc".toList, 2, none, false⟩ /- 48 -/,
  ⟨"elliprc".toList, 2, none, false⟩ /- 49 -/,
  ⟨"elliprd".toList, 3, none, false⟩ /- 50 -/,
  ⟨"elliprf".toList, 3, none, false⟩ /- 51 -/,
  ⟨"elliprg".toList, 3, none, false⟩ /- 52 -/,
  ⟨"elliprj".toList, 4, none, false⟩ /- 53 -/,
  ⟨"jv".toList, 2, none, false⟩ /- 55 -/,
  ⟨"jve".toList, 2, none, false⟩ /- 56 -/,
  ⟨"yn".toList, 2, none, false⟩ /- 57 -/,
  ⟨"yv".toList, 2, none, false⟩ /- 58 -/,
  ⟨"yve".toList, 2, none, false⟩ /- 59 -/,
  ⟨"kn".toList, 2, none, true⟩ /- 60 -/,
  ⟨"kv".toList, 2, none, false⟩ /- 61 -/,
  ⟨"kve".toList, 2, none, false⟩ /- 62 -/,
  ⟨"iv".toList, 2, none, false⟩ /- 63 -/,
  ⟨"ive".toList, 2, none, false⟩ /- 64 -/,
  ⟨"hankel1".toList, 2, none, false⟩ /- 65 -/,
  ⟨"hankel1e".toList, 2, none, false⟩ /- 66 -/,
  ⟨"hankel2".toList, 2, none, false⟩ /- 67 -/,
  ⟨"hankel2e".toList, 2, none, false⟩ /- 68 -/,
  ⟨"wright_bessel".toList, 3, none, false⟩ /- 69 -/,
  ⟨"itj0y0".toList, 1, some ["ij0".toList, "iy0".toList], false⟩ /- 71 -/,
  ⟨"it2j0y0".toList, 1, some ["ij0".toList, "iy0".toList], false⟩ /- 72 -/,
  ⟨"iti0k0".toList, 1, some ["ii0".toList, "ik0".toList], false⟩ /- 73 -/,
  ⟨"it2i0k0".toList, 1, some ["ii0".toList, "ik0".toList], false⟩ /- 74 -/,
  ⟨"besselpoly".toList, 3, none, false⟩ /- 75 -/,
  ⟨"jvp".toList, 2, none, false⟩ /- 77 -/,
  ⟨"yvp".toList, 2, none, false⟩ /- 78 -/,
  ⟨"ivp".toList, 2, none, false⟩ /- 79 -/,
  ⟨"h1vp".toList, 2, none, false⟩ /- 80 -/,
  ⟨"h2vp".toList, 2, none, false⟩ /- 81 -/,
  ⟨"bdtrc".toList, 3, none, true⟩ /- 83 -/,
  ⟨"bdtri".toList, 3, none, true⟩ /- 84 -/,
  ⟨"bdtrik".toList, 3, none, false⟩ /- 85 -/,
  ⟨"bdtrin".toList, 3, none, false⟩ /- 86 -/,
  ⟨"btdtria".toList, 3, none, false⟩ /- 88 -/,
  ⟨"btdtrib".toList, 3, none, false⟩ /- 89 -/,
  ⟨"fdtr".toList, 3, none, false⟩ /- 91 -/,
  ⟨"fdtrc".toList, 3, none, false⟩ /- 92 -/,
  ⟨"fdtri".toList, 3, none, false⟩ /- 93 -/,
  ⟨"fdtridfd".toList, 3, none, false⟩ /- 94 -/,
  ⟨"gdtr".toList, 3, none, false⟩ /- 96 -/,
  ⟨"gdtrc".toList, 3, none, false⟩ /- 97 -/,
  ⟨"gdtria".toList, 3, none, false⟩ /- 98 -/,
  ⟨"gdtrib".toList, 3, none, false⟩ /- 99 -/,
  ⟨"gdtrix".toList, 3, none, false⟩ /- 100 -/,
  ⟨"nbdtr".toList, 3, none, false⟩ /- 102 -/,
  ⟨"nbdtrc".toList, 3, none, false⟩ /- 103 -/,
  ⟨"nbdtri".toList, 3, none, true⟩ /- 104 -/,
  ⟨"nbdtrik".toList, 3, none, false⟩ /- 105 -/,
  ⟨"nbdtrin".toList, 3, none, false⟩ /- 106 -/,
  ⟨"ncfdtr".toList, 4, none, false⟩ /- 108 -/,
  ⟨"ncfdtridfd".toList, 4, none, false⟩ /- 109 -/,
  ⟨"ncfdtridfn".toList, 4, none, false⟩ /- 110 -/,
  ⟨"ncfdtri".toList, 4, none, false⟩ /- 111 -/,
  ⟨"ncfdtrinc".toList, 4, none, false⟩ /- 112 -/,
  ⟨"nctdtr".toList, 3, none, false⟩ /- 114 -/,
  ⟨"nctdtridf".toList, 3, none, false⟩ /- 115 -/,
  ⟨"nctdtrit".toList, 3, none, false⟩ /- 116 -/,
  ⟨"nctdtrinc".toList, 3, none, false⟩ /- 117 -/,
  ⟨"nrdtrimn".toList, 3, none, false⟩ /- 119 -/,
  ⟨"nrdtrisd".toList, 3, none, false⟩ /- 120 -/,
  ⟨"ndtr".toList, 1, none, false⟩ /- 121 -/,
  ⟨"log_ndtr".toList, 1, none, false⟩ /- 122 -/,
  ⟨"ndtri".toList, 1, none, false⟩ /- 123 -/,
  ⟨"ndtri_exp".toList, 1, none, false⟩ /- 124 -/,
  ⟨"pdtr".toList, 2, none, false⟩ /- 126 -/,
  ⟨"pdtrc".toList, 2, none, false⟩ /- 127 -/,
  ⟨"pdtri".toList, 2, none, false⟩ /- 128 -/,
  ⟨"pdtrik".toList, 2, none, false⟩ /- 129 -/,
  ⟨"stdtr".toList, 2, none, false⟩ /- 131 -/,
  ⟨"stdtridf".toList, 2, none, false⟩ /- 132 -/,
  ⟨"stdtrit".toList, 2, none, false⟩ /- 133 -/,
  ⟨"chdtr".toList, 2, none, false⟩ /- 135 -/,
  ⟨"chdtrc".toList, 2, none, false⟩ /- 136 -/,
  ⟨"chdtri".toList, 2, none, false⟩ /- 137 -/,
  ⟨"chdtriv".toList, 2, none, false⟩ /- 138 -/,
  ⟨"chndtr".toList, 3, none, false⟩ /- 140 -/,
  ⟨"chndtridf".toList, 3, none, false⟩ /- 141 -/,
  ⟨"chndtrinc".toList, 3, none, false⟩ /- 142 -/,
  ⟨"chndtrix".toList, 3, none, false⟩ /- 143 -/,
  ⟨"smirnov".toList, 2, none, false⟩ /- 145 -/,
  ⟨"smirnovi".toList, 2, none, false⟩ /- 146 -/,
  ⟨"kolmogorov".toList, 1, none, false⟩ /- 147 -/,
  ⟨"kolmogi".toList, 1, none, false⟩ /- 148 -/,
  ⟨"boxcox".toList, 2, none, false⟩ /- 150 -/,
  ⟨"boxcox1p".toList, 2, none, false⟩ /- 151 -/,
  ⟨"inv_boxcox".toList, 2, none, false⟩ /- 152 -/,
  ⟨"inv_boxcox1p".toList, 2, none, false⟩ /- 153 -/,
  ⟨"logit".toList, 1, none, false⟩ /- 155 -/,
  ⟨"expit".toList, 1, none, false⟩ /- 156 -/,
  ⟨"log_expit".toList, 1, none, false⟩ /- 157 -/,
  ⟨"tklmbda".toList, 2, none, false⟩ /- 159 -/,
  ⟨"owens_t".toList, 2, none, false⟩ /- 160 -/,
  ⟨"entr".toList, 1, none, false⟩ /- 162 -/,
  ⟨"rel_entr".toList, 2, none, false⟩ /- 163 -/,
  ⟨"kl_div".toList, 2, none, false⟩ /- 164 -/,
  ⟨"huber".toList, 2, none, false⟩ /- 165 -/,
  ⟨"pseudo_huber".toList, 2, none, false⟩ /- 166 -/,
  ⟨"gamma".toList, 1, none, false⟩ /- 168 -/,
  ⟨"gammaln".toList, 1, none, false⟩ /- 169 -/,
  ⟨"loggamma".toList, 1, none, false⟩ /- 170 -/,
  ⟨"gammasgn".toList, 1, none, false⟩ /- 171 -/,
  ⟨"gammainc".toList, 2, none, false⟩ /- 172 -/,
  ⟨"gammaincinv".toList, 2, none, false⟩ /- 173 -/,
  ⟨"gammaincc".toList, 2, none, false⟩ /- 174 -/,
  ⟨"gammainccinv".toList, 2, none, false⟩ /- 175 -/,
  ⟨"beta".toList, 2, none, false⟩ /- 176 -/,
  ⟨"betaln".toList, 2, none, false⟩ /- 177 -/,
  ⟨"betainc".toList, 3, none, false⟩ /- 178 -/,
  ⟨"betaincc".toList, 3, none, false⟩ /- 179 -/,
  ⟨"betaincinv".toList, 3, none, false⟩ /- 180 -/,
  ⟨"betainccinv".toList, 3, none, false⟩ /- 181 -/,
  ⟨"psi".toList, 1, none, false⟩ /- 182 -/,
  ⟨"rgamma".toList, 1, none, false⟩ /- 183 -/,
  ⟨"polygamma".toList, 2, none, false⟩ /- 184 -/,
  ⟨"digamma".toList, 1, none, false⟩ /- 185 -/,
  ⟨"poch".toList, 2, none, false⟩ /- 186 -/,
  ⟨"lpmv".toList, 3, none, false⟩ /- 188 -/,
  ⟨"sph_harm".toList, 4, none, false⟩ /- 189 -/,
  ⟨"hyp2f1".toList, 4, none, false⟩ /- 191 -/,
  ⟨"hyp1f1".toList, 3, none, false⟩ /- 192 -/,
  ⟨"hyperu".toList, 3, none, false⟩ /- 193 -/,
  ⟨"hyp0f1".toList, 2, none, false⟩ /- 194 -/,
  ⟨"pbdv".toList, 2, some ["d".toList, "dp".toList], false⟩ /- 196 -/,
  ⟨"pbvv".toList, 2, some ["v".toList, "vp".toList], false⟩ /- 197 -/,
  ⟨"pbwa".toList, 2, some ["w".toList, "wp".toList], false⟩ /- 198 -/,
  ⟨"mathieu_a".toList, 2, none, false⟩ /- 200 -/,
  ⟨"mathieu_b".toList, 2, none, false⟩ /- 201 -/,
  ⟨"kelvin".toList, 1, some ["Be".toList, "Ke".toList, "Bep".toList, "Kep".toList], false⟩ /- 203 -/,
  ⟨"ber".toList, 1, none, false⟩ /- 204 -/,
  ⟨"bei".toList, 1, none, false⟩ /- 205 -/,
  ⟨"berp".toList, 1, none, false⟩ /- 206 -/,
  ⟨"beip".toList, 1, none, false⟩ /- 207 -/,
  ⟨"ker".toList, 1, none, false⟩ /- 208 -/,
  ⟨"kei".toList, 1, none, false⟩ /- 209 -/,
  ⟨"kerp".toList, 1, none, false⟩ /- 210 -/,
  ⟨"keip".toList, 1, none, false⟩ /- 211 -/,
  ⟨"lambertw".toList, 1, none, false⟩ /- 213 -/,
  ⟨"wrightomega".toList, 1, none, false⟩ /- 214 -/,
  ⟨"agm".toList, 2, none, false⟩ /- 216 -/,
  ⟨"expn".toList, 2, none, false⟩ /- 217 -/,
  ⟨"exp1".toList, 1, none, false⟩ /- 218 -/,
  ⟨"expi".toList, 1, none, false⟩ /- 219 -/,
  ⟨"shichi".toList, 1, some ["si".toList, "ci".toList], false⟩ /- 220 -/,
  ⟨"sici".toList, 1, some ["si".toList, "ci".toList], false⟩ /- 221 -/,
  ⟨"zeta".toList, 1, none, false⟩ /- 222 -/,
  ⟨"zetac".toList, 1, none, false⟩ /- 223 -/]

end MC.Functions
