import Verif.Model.Basic
/-!
# Character entities (thirdparty/minixml/src/mxml-entity.c)
-/
namespace Afs.Xml
open Afs

/-- `mxmlEntityGetName` (mxml-entity.c:59-79). -/
def entityName (ch : UInt8) : Option Bytes :=
  if ch = 38 then some (b! "amp")
  else if ch = 60 then some (b! "lt")
  else if ch = 62 then some (b! "gt")
  else if ch = 34 then some (b! "quot")
  else none

/-- `entities[]` (mxml-entity.c:148-411). -/
def entityTable : List (Bytes × Nat) := [
  (b! "AElig", 198),
  (b! "Aacute", 193),
  (b! "Acirc", 194),
  (b! "Agrave", 192),
  (b! "Alpha", 913),
  (b! "Aring", 197),
  (b! "Atilde", 195),
  (b! "Auml", 196),
  (b! "Beta", 914),
  (b! "Ccedil", 199),
  (b! "Chi", 935),
  (b! "Dagger", 8225),
  (b! "Delta", 916),
  (b! "Dstrok", 208),
  (b! "ETH", 208),
  (b! "Eacute", 201),
  (b! "Ecirc", 202),
  (b! "Egrave", 200),
  (b! "Epsilon", 917),
  (b! "Eta", 919),
  (b! "Euml", 203),
  (b! "Gamma", 915),
  (b! "Iacute", 205),
  (b! "Icirc", 206),
  (b! "Igrave", 204),
  (b! "Iota", 921),
  (b! "Iuml", 207),
  (b! "Kappa", 922),
  (b! "Lambda", 923),
  (b! "Mu", 924),
  (b! "Ntilde", 209),
  (b! "Nu", 925),
  (b! "OElig", 338),
  (b! "Oacute", 211),
  (b! "Ocirc", 212),
  (b! "Ograve", 210),
  (b! "Omega", 937),
  (b! "Omicron", 927),
  (b! "Oslash", 216),
  (b! "Otilde", 213),
  (b! "Ouml", 214),
  (b! "Phi", 934),
  (b! "Pi", 928),
  (b! "Prime", 8243),
  (b! "Psi", 936),
  (b! "Rho", 929),
  (b! "Scaron", 352),
  (b! "Sigma", 931),
  (b! "THORN", 222),
  (b! "Tau", 932),
  (b! "Theta", 920),
  (b! "Uacute", 218),
  (b! "Ucirc", 219),
  (b! "Ugrave", 217),
  (b! "Upsilon", 933),
  (b! "Uuml", 220),
  (b! "Xi", 926),
  (b! "Yacute", 221),
  (b! "Yuml", 376),
  (b! "Zeta", 918),
  (b! "aacute", 225),
  (b! "acirc", 226),
  (b! "acute", 180),
  (b! "aelig", 230),
  (b! "agrave", 224),
  (b! "alefsym", 8501),
  (b! "alpha", 945),
  (b! "amp", 38),
  (b! "and", 8743),
  (b! "ang", 8736),
  (b! "apos", 39),
  (b! "aring", 229),
  (b! "asymp", 8776),
  (b! "atilde", 227),
  (b! "auml", 228),
  (b! "bdquo", 8222),
  (b! "beta", 946),
  (b! "brkbar", 166),
  (b! "brvbar", 166),
  (b! "bull", 8226),
  (b! "cap", 8745),
  (b! "ccedil", 231),
  (b! "cedil", 184),
  (b! "cent", 162),
  (b! "chi", 967),
  (b! "circ", 710),
  (b! "clubs", 9827),
  (b! "cong", 8773),
  (b! "copy", 169),
  (b! "crarr", 8629),
  (b! "cup", 8746),
  (b! "curren", 164),
  (b! "dArr", 8659),
  (b! "dagger", 8224),
  (b! "darr", 8595),
  (b! "deg", 176),
  (b! "delta", 948),
  (b! "diams", 9830),
  (b! "die", 168),
  (b! "divide", 247),
  (b! "eacute", 233),
  (b! "ecirc", 234),
  (b! "egrave", 232),
  (b! "empty", 8709),
  (b! "emsp", 8195),
  (b! "ensp", 8194),
  (b! "epsilon", 949),
  (b! "equiv", 8801),
  (b! "eta", 951),
  (b! "eth", 240),
  (b! "euml", 235),
  (b! "euro", 8364),
  (b! "exist", 8707),
  (b! "fnof", 402),
  (b! "forall", 8704),
  (b! "frac12", 189),
  (b! "frac14", 188),
  (b! "frac34", 190),
  (b! "frasl", 8260),
  (b! "gamma", 947),
  (b! "ge", 8805),
  (b! "gt", 62),
  (b! "hArr", 8660),
  (b! "harr", 8596),
  (b! "hearts", 9829),
  (b! "hellip", 8230),
  (b! "hibar", 175),
  (b! "iacute", 237),
  (b! "icirc", 238),
  (b! "iexcl", 161),
  (b! "igrave", 236),
  (b! "image", 8465),
  (b! "infin", 8734),
  (b! "int", 8747),
  (b! "iota", 953),
  (b! "iquest", 191),
  (b! "isin", 8712),
  (b! "iuml", 239),
  (b! "kappa", 954),
  (b! "lArr", 8656),
  (b! "lambda", 955),
  (b! "lang", 9001),
  (b! "laquo", 171),
  (b! "larr", 8592),
  (b! "lceil", 8968),
  (b! "ldquo", 8220),
  (b! "le", 8804),
  (b! "lfloor", 8970),
  (b! "lowast", 8727),
  (b! "loz", 9674),
  (b! "lrm", 8206),
  (b! "lsaquo", 8249),
  (b! "lsquo", 8216),
  (b! "lt", 60),
  (b! "macr", 175),
  (b! "mdash", 8212),
  (b! "micro", 181),
  (b! "middot", 183),
  (b! "minus", 8722),
  (b! "mu", 956),
  (b! "nabla", 8711),
  (b! "nbsp", 160),
  (b! "ndash", 8211),
  (b! "ne", 8800),
  (b! "ni", 8715),
  (b! "not", 172),
  (b! "notin", 8713),
  (b! "nsub", 8836),
  (b! "ntilde", 241),
  (b! "nu", 957),
  (b! "oacute", 243),
  (b! "ocirc", 244),
  (b! "oelig", 339),
  (b! "ograve", 242),
  (b! "oline", 8254),
  (b! "omega", 969),
  (b! "omicron", 959),
  (b! "oplus", 8853),
  (b! "or", 8744),
  (b! "ordf", 170),
  (b! "ordm", 186),
  (b! "oslash", 248),
  (b! "otilde", 245),
  (b! "otimes", 8855),
  (b! "ouml", 246),
  (b! "para", 182),
  (b! "part", 8706),
  (b! "permil", 8240),
  (b! "perp", 8869),
  (b! "phi", 966),
  (b! "pi", 960),
  (b! "piv", 982),
  (b! "plusmn", 177),
  (b! "pound", 163),
  (b! "prime", 8242),
  (b! "prod", 8719),
  (b! "prop", 8733),
  (b! "psi", 968),
  (b! "quot", 34),
  (b! "rArr", 8658),
  (b! "radic", 8730),
  (b! "rang", 9002),
  (b! "raquo", 187),
  (b! "rarr", 8594),
  (b! "rceil", 8969),
  (b! "rdquo", 8221),
  (b! "real", 8476),
  (b! "reg", 174),
  (b! "rfloor", 8971),
  (b! "rho", 961),
  (b! "rlm", 8207),
  (b! "rsaquo", 8250),
  (b! "rsquo", 8217),
  (b! "sbquo", 8218),
  (b! "scaron", 353),
  (b! "sdot", 8901),
  (b! "sect", 167),
  (b! "shy", 173),
  (b! "sigma", 963),
  (b! "sigmaf", 962),
  (b! "sim", 8764),
  (b! "spades", 9824),
  (b! "sub", 8834),
  (b! "sube", 8838),
  (b! "sum", 8721),
  (b! "sup", 8835),
  (b! "sup1", 185),
  (b! "sup2", 178),
  (b! "sup3", 179),
  (b! "supe", 8839),
  (b! "szlig", 223),
  (b! "tau", 964),
  (b! "there4", 8756),
  (b! "theta", 952),
  (b! "thetasym", 977),
  (b! "thinsp", 8201),
  (b! "thorn", 254),
  (b! "tilde", 732),
  (b! "times", 215),
  (b! "trade", 8482),
  (b! "uArr", 8657),
  (b! "uacute", 250),
  (b! "uarr", 8593),
  (b! "ucirc", 251),
  (b! "ugrave", 249),
  (b! "uml", 168),
  (b! "upsih", 978),
  (b! "upsilon", 965),
  (b! "uuml", 252),
  (b! "weierp", 8472),
  (b! "xi", 958),
  (b! "yacute", 253),
  (b! "yen", 165),
  (b! "yuml", 255),
  (b! "zeta", 950),
  (b! "zwj", 8205),
  (b! "zwnj", 8204)]

/-- Sign of `strcmp`: unsigned bytes, a proper prefix is smaller.
    glibc; call in mxml-entity.c:430-448. -/
def strcmpOrd : Bytes → Bytes → Ordering
  | [], [] => .eq
  | [], _ :: _ => .lt
  | _ :: _, [] => .gt
  | a :: as, b :: bs => if a.toNat < b.toNat then .lt else if b.toNat < a.toNat then .gt else strcmpOrd as bs

/-- The binary search loop of `_mxml_entity_cb` (mxml-entity.c:421-443) on a table: `first` and
    `last` are indices; when the loop ends both are tried.  `fuel` only makes the recursion
    structural; `last - first` iterations are always enough (C40). -/
def entitySearch (tab : List (Bytes × Nat)) (name : Bytes) : Nat → Nat → Nat → Option Nat
  | 0, _, _ => none
  | fuel + 1, first, last =>
    if last - first > 1 then
      let cur := (first + last) / 2
      match strcmpOrd name (tab.getD cur ([], 0)).1 with
      | .eq => some (tab.getD cur ([], 0)).2
      | .lt => entitySearch tab name fuel first cur
      | .gt => entitySearch tab name fuel cur last
    else if name = (tab.getD first ([], 0)).1 then some (tab.getD first ([], 0)).2
    else if name = (tab.getD last ([], 0)).1 then some (tab.getD last ([], 0)).2
    else none

/-- `mxmlEntityGetValue` (mxml-entity.c:89-103) with the only registered callback
    `_mxml_entity_cb` (141-444); -1 is `none`. -/
def entityValue (name : Bytes) : Option Nat :=
  entitySearch entityTable name (entityTable.length + 1) 0 (entityTable.length - 1)

end Afs.Xml
