import Verif.Model.Basic
/-!
# The named characters of HTML 4 (HTML 4.01, section 24), and XML's `apos`

Each set in the order of its characters; a set of adjacent characters is given by its first character and its names.
-/
namespace Afs.Spec.Html

/-- Names of adjacent characters, beginning with `first`. -/
def row (first : Nat) : List String → List (String × Nat)
  | [] => []
  | n :: ns => (n, first) :: row (first + 1) ns

/-- Every named character of HTML 4. -/
def named : List (String × Nat) :=
    row 0x22 ["quot"] ++
    row 0x26 ["amp"] ++
    row 0x3c ["lt"] ++
    row 0x3e ["gt"] ++
    row 0xa0 ["nbsp", "iexcl", "cent", "pound", "curren", "yen", "brvbar", "sect", "uml", "copy", "ordf", "laquo", "not",
    "shy", "reg", "macr", "deg", "plusmn", "sup2", "sup3", "acute", "micro", "para", "middot", "cedil", "sup1", "ordm",
    "raquo", "frac14", "frac12", "frac34", "iquest", "Agrave", "Aacute", "Acirc", "Atilde", "Auml", "Aring", "AElig",
    "Ccedil", "Egrave", "Eacute", "Ecirc", "Euml", "Igrave", "Iacute", "Icirc", "Iuml", "ETH", "Ntilde", "Ograve", "Oacute",
    "Ocirc", "Otilde", "Ouml", "times", "Oslash", "Ugrave", "Uacute", "Ucirc", "Uuml", "Yacute", "THORN", "szlig", "agrave",
    "aacute", "acirc", "atilde", "auml", "aring", "aelig", "ccedil", "egrave", "eacute", "ecirc", "euml", "igrave", "iacute",
    "icirc", "iuml", "eth", "ntilde", "ograve", "oacute", "ocirc", "otilde", "ouml", "divide", "oslash", "ugrave", "uacute",
    "ucirc", "uuml", "yacute", "thorn", "yuml"] ++
    row 0x152 ["OElig", "oelig"] ++
    row 0x160 ["Scaron", "scaron"] ++
    row 0x178 ["Yuml"] ++
    row 0x192 ["fnof"] ++
    row 0x2c6 ["circ"] ++
    row 0x2dc ["tilde"] ++
    row 0x391 ["Alpha", "Beta", "Gamma", "Delta", "Epsilon", "Zeta", "Eta", "Theta", "Iota", "Kappa", "Lambda", "Mu", "Nu",
    "Xi", "Omicron", "Pi", "Rho"] ++
    row 0x3a3 ["Sigma", "Tau", "Upsilon", "Phi", "Chi", "Psi", "Omega"] ++
    row 0x3b1 ["alpha", "beta", "gamma", "delta", "epsilon", "zeta", "eta", "theta", "iota", "kappa", "lambda", "mu", "nu",
    "xi", "omicron", "pi", "rho", "sigmaf", "sigma", "tau", "upsilon", "phi", "chi", "psi", "omega"] ++
    row 0x3d1 ["thetasym", "upsih"] ++
    row 0x3d6 ["piv"] ++
    row 0x2002 ["ensp", "emsp"] ++
    row 0x2009 ["thinsp"] ++
    row 0x200c ["zwnj", "zwj", "lrm", "rlm"] ++
    row 0x2013 ["ndash", "mdash"] ++
    row 0x2018 ["lsquo", "rsquo", "sbquo"] ++
    row 0x201c ["ldquo", "rdquo", "bdquo"] ++
    row 0x2020 ["dagger", "Dagger", "bull"] ++
    row 0x2026 ["hellip"] ++
    row 0x2030 ["permil"] ++
    row 0x2032 ["prime", "Prime"] ++
    row 0x2039 ["lsaquo", "rsaquo"] ++
    row 0x203e ["oline"] ++
    row 0x2044 ["frasl"] ++
    row 0x20ac ["euro"] ++
    row 0x2111 ["image"] ++
    row 0x2118 ["weierp"] ++
    row 0x211c ["real"] ++
    row 0x2122 ["trade"] ++
    row 0x2135 ["alefsym"] ++
    row 0x2190 ["larr", "uarr", "rarr", "darr", "harr"] ++
    row 0x21b5 ["crarr"] ++
    row 0x21d0 ["lArr", "uArr", "rArr", "dArr", "hArr"] ++
    row 0x2200 ["forall"] ++
    row 0x2202 ["part", "exist"] ++
    row 0x2205 ["empty"] ++
    row 0x2207 ["nabla", "isin", "notin"] ++
    row 0x220b ["ni"] ++
    row 0x220f ["prod"] ++
    row 0x2211 ["sum", "minus"] ++
    row 0x2217 ["lowast"] ++
    row 0x221a ["radic"] ++
    row 0x221d ["prop", "infin"] ++
    row 0x2220 ["ang"] ++
    row 0x2227 ["and", "or", "cap", "cup", "int"] ++
    row 0x2234 ["there4"] ++
    row 0x223c ["sim"] ++
    row 0x2245 ["cong"] ++
    row 0x2248 ["asymp"] ++
    row 0x2260 ["ne", "equiv"] ++
    row 0x2264 ["le", "ge"] ++
    row 0x2282 ["sub", "sup", "nsub"] ++
    row 0x2286 ["sube", "supe"] ++
    row 0x2295 ["oplus"] ++
    row 0x2297 ["otimes"] ++
    row 0x22a5 ["perp"] ++
    row 0x22c5 ["sdot"] ++
    row 0x2308 ["lceil", "rceil", "lfloor", "rfloor"] ++
    row 0x2329 ["lang", "rang"] ++
    row 0x25ca ["loz"] ++
    row 0x2660 ["spades"] ++
    row 0x2663 ["clubs"] ++
    row 0x2665 ["hearts", "diams"]

/-- Names that are not in HTML 4: XML's own, and older names of characters that have another one. -/
def others : List (String × Nat) :=
  [("apos", 0x27), ("Dstrok", 0xd0), ("brkbar", 0xa6), ("die", 0xa8), ("hibar", 0xaf)]

end Afs.Spec.Html
