import Verif.Model.Base
/-!
Specification: the registered Graphviz attribute names, alphabetically (the constants declared in attr.go:32-381; each name
is the Graphviz attribute documented at https://graphviz.org/doc/info/attrs.html).
-/
namespace Gographviz.Spec

/-- The registered attribute names. -/
def registered : List Str := [
  b!"Damping", b!"K", b!"URL", b!"_background", b!"area", b!"arrowhead", b!"arrowsize", b!"arrowtail", b!"bb",
  b!"bgcolor", b!"center", b!"charset", b!"clusterrank", b!"color", b!"colorscheme", b!"comment", b!"compound",
  b!"concentrate", b!"constraint", b!"decorate", b!"defaultdist", b!"dim", b!"dimen", b!"dir",
  b!"diredgeconstraints", b!"distortion", b!"dpi", b!"edgeURL", b!"edgehref", b!"edgetarget", b!"edgetooltip",
  b!"epsilon", b!"esep", b!"f", b!"fillcolor", b!"fixedsize", b!"fontcolor", b!"fontname", b!"fontnames",
  b!"fontpath", b!"fontsize", b!"forcelabels", b!"gradientangle", b!"group", b!"headURL", b!"head_lp",
  b!"headclip", b!"headhref", b!"headlabel", b!"headport", b!"headtarget", b!"headtooltip", b!"height",
  b!"href", b!"id", b!"image", b!"imagepath", b!"imagepos", b!"imagescale", b!"inputscale", b!"label",
  b!"labelURL", b!"label_scheme", b!"labelangle", b!"labeldistance", b!"labelfloat", b!"labelfontcolor",
  b!"labelfontname", b!"labelfontsize", b!"labelhref", b!"labeljust", b!"labelloc", b!"labeltarget",
  b!"labeltooltip", b!"landscape", b!"layer", b!"layerlistsep", b!"layers", b!"layerselect", b!"layersep",
  b!"layout", b!"len", b!"levels", b!"levelsgap", b!"lhead", b!"lheight", b!"lp", b!"ltail", b!"lwidth",
  b!"margin", b!"maxiter", b!"mclimit", b!"mincross", b!"mindist", b!"minlen", b!"mode", b!"model", b!"mosek",
  b!"newrank", b!"nodesep", b!"nojustify", b!"normalize", b!"notranslate", b!"nslimit", b!"nslimit1",
  b!"ordering", b!"orientation", b!"outline", b!"outputorder", b!"overlap", b!"overlap_scaling",
  b!"overlap_shrink", b!"pack", b!"packmode", b!"pad", b!"page", b!"pagedir", b!"pencolor", b!"penwidth",
  b!"peripheries", b!"pin", b!"pos", b!"quadtree", b!"quantum", b!"rank", b!"rankdir", b!"ranksep", b!"ratio",
  b!"rects", b!"regular", b!"remincross", b!"repulsiveforce", b!"resolution", b!"root", b!"rotate",
  b!"rotation", b!"samehead", b!"sametail", b!"samplepoints", b!"scale", b!"searchsize", b!"sep", b!"shape",
  b!"shapefile", b!"showboxes", b!"sides", b!"size", b!"skew", b!"smoothing", b!"sortv", b!"splines",
  b!"ssize", b!"start", b!"style", b!"stylesheet", b!"tailURL", b!"tail_lp", b!"tailclip", b!"tailhref",
  b!"taillabel", b!"tailport", b!"tailtarget", b!"tailtooltip", b!"target", b!"tooltip", b!"truecolor",
  b!"vertices", b!"viewport", b!"voro_margin", b!"weight", b!"width", b!"xdotversion", b!"xlabel", b!"xlp",
  b!"z"]

/-- A registered attribute name. -/
def Registered (k : Str) : Prop := k ∈ registered

instance (k : Str) : Decidable (Registered k) := inferInstanceAs (Decidable (k ∈ registered))

end Gographviz.Spec
