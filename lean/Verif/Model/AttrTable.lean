/- Generated by tools/gen_tables.py from the text of /repo. Do not edit. -/
import Verif.Model.Base
namespace Gographviz

/-- attr.go:386-561 `validAttrs`: every entry has the form `string(X): X`, so the map sends a
registered name to itself and is modelled by the list of registered names (in source order). -/
def validAttrs : List Str := [
  [68, 97, 109, 112, 105, 110, 103] /- Damping -/,
  [75] /- K -/,
  [85, 82, 76] /- URL -/,
  [95, 98, 97, 99, 107, 103, 114, 111, 117, 110, 100] /- _background -/,
  [97, 114, 101, 97] /- area -/,
  [97, 114, 114, 111, 119, 104, 101, 97, 100] /- arrowhead -/,
  [97, 114, 114, 111, 119, 115, 105, 122, 101] /- arrowsize -/,
  [97, 114, 114, 111, 119, 116, 97, 105, 108] /- arrowtail -/,
  [98, 98] /- bb -/,
  [98, 103, 99, 111, 108, 111, 114] /- bgcolor -/,
  [99, 101, 110, 116, 101, 114] /- center -/,
  [99, 104, 97, 114, 115, 101, 116] /- charset -/,
  [99, 108, 117, 115, 116, 101, 114, 114, 97, 110, 107] /- clusterrank -/,
  [99, 111, 108, 111, 114] /- color -/,
  [99, 111, 108, 111, 114, 115, 99, 104, 101, 109, 101] /- colorscheme -/,
  [99, 111, 109, 109, 101, 110, 116] /- comment -/,
  [99, 111, 109, 112, 111, 117, 110, 100] /- compound -/,
  [99, 111, 110, 99, 101, 110, 116, 114, 97, 116, 101] /- concentrate -/,
  [99, 111, 110, 115, 116, 114, 97, 105, 110, 116] /- constraint -/,
  [100, 101, 99, 111, 114, 97, 116, 101] /- decorate -/,
  [100, 101, 102, 97, 117, 108, 116, 100, 105, 115, 116] /- defaultdist -/,
  [100, 105, 109] /- dim -/,
  [100, 105, 109, 101, 110] /- dimen -/,
  [100, 105, 114] /- dir -/,
  [100, 105, 114, 101, 100, 103, 101, 99, 111, 110, 115, 116, 114, 97, 105, 110, 116, 115] /- diredgeconstraints -/,
  [100, 105, 115, 116, 111, 114, 116, 105, 111, 110] /- distortion -/,
  [100, 112, 105] /- dpi -/,
  [101, 100, 103, 101, 85, 82, 76] /- edgeURL -/,
  [101, 100, 103, 101, 104, 114, 101, 102] /- edgehref -/,
  [101, 100, 103, 101, 116, 97, 114, 103, 101, 116] /- edgetarget -/,
  [101, 100, 103, 101, 116, 111, 111, 108, 116, 105, 112] /- edgetooltip -/,
  [101, 112, 115, 105, 108, 111, 110] /- epsilon -/,
  [101, 115, 101, 112] /- esep -/,
  [102, 105, 108, 108, 99, 111, 108, 111, 114] /- fillcolor -/,
  [102, 105, 120, 101, 100, 115, 105, 122, 101] /- fixedsize -/,
  [102, 111, 110, 116, 99, 111, 108, 111, 114] /- fontcolor -/,
  [102, 111, 110, 116, 110, 97, 109, 101] /- fontname -/,
  [102, 111, 110, 116, 110, 97, 109, 101, 115] /- fontnames -/,
  [102, 111, 110, 116, 112, 97, 116, 104] /- fontpath -/,
  [102, 111, 110, 116, 115, 105, 122, 101] /- fontsize -/,
  [102, 111, 114, 99, 101, 108, 97, 98, 101, 108, 115] /- forcelabels -/,
  [103, 114, 97, 100, 105, 101, 110, 116, 97, 110, 103, 108, 101] /- gradientangle -/,
  [103, 114, 111, 117, 112] /- group -/,
  [104, 101, 97, 100, 85, 82, 76] /- headURL -/,
  [104, 101, 97, 100, 95, 108, 112] /- head_lp -/,
  [104, 101, 97, 100, 99, 108, 105, 112] /- headclip -/,
  [104, 101, 97, 100, 104, 114, 101, 102] /- headhref -/,
  [104, 101, 97, 100, 108, 97, 98, 101, 108] /- headlabel -/,
  [104, 101, 97, 100, 112, 111, 114, 116] /- headport -/,
  [104, 101, 97, 100, 116, 97, 114, 103, 101, 116] /- headtarget -/,
  [104, 101, 97, 100, 116, 111, 111, 108, 116, 105, 112] /- headtooltip -/,
  [104, 101, 105, 103, 104, 116] /- height -/,
  [104, 114, 101, 102] /- href -/,
  [105, 100] /- id -/,
  [105, 109, 97, 103, 101] /- image -/,
  [105, 109, 97, 103, 101, 112, 97, 116, 104] /- imagepath -/,
  [105, 109, 97, 103, 101, 112, 111, 115] /- imagepos -/,
  [105, 109, 97, 103, 101, 115, 99, 97, 108, 101] /- imagescale -/,
  [105, 110, 112, 117, 116, 115, 99, 97, 108, 101] /- inputscale -/,
  [108, 97, 98, 101, 108] /- label -/,
  [108, 97, 98, 101, 108, 85, 82, 76] /- labelURL -/,
  [108, 97, 98, 101, 108, 95, 115, 99, 104, 101, 109, 101] /- label_scheme -/,
  [108, 97, 98, 101, 108, 97, 110, 103, 108, 101] /- labelangle -/,
  [108, 97, 98, 101, 108, 100, 105, 115, 116, 97, 110, 99, 101] /- labeldistance -/,
  [108, 97, 98, 101, 108, 102, 108, 111, 97, 116] /- labelfloat -/,
  [108, 97, 98, 101, 108, 102, 111, 110, 116, 99, 111, 108, 111, 114] /- labelfontcolor -/,
  [108, 97, 98, 101, 108, 102, 111, 110, 116, 110, 97, 109, 101] /- labelfontname -/,
  [108, 97, 98, 101, 108, 102, 111, 110, 116, 115, 105, 122, 101] /- labelfontsize -/,
  [108, 97, 98, 101, 108, 104, 114, 101, 102] /- labelhref -/,
  [108, 97, 98, 101, 108, 106, 117, 115, 116] /- labeljust -/,
  [108, 97, 98, 101, 108, 108, 111, 99] /- labelloc -/,
  [108, 97, 98, 101, 108, 116, 97, 114, 103, 101, 116] /- labeltarget -/,
  [108, 97, 98, 101, 108, 116, 111, 111, 108, 116, 105, 112] /- labeltooltip -/,
  [108, 97, 110, 100, 115, 99, 97, 112, 101] /- landscape -/,
  [108, 97, 121, 101, 114] /- layer -/,
  [108, 97, 121, 101, 114, 108, 105, 115, 116, 115, 101, 112] /- layerlistsep -/,
  [108, 97, 121, 101, 114, 115] /- layers -/,
  [108, 97, 121, 101, 114, 115, 101, 108, 101, 99, 116] /- layerselect -/,
  [108, 97, 121, 101, 114, 115, 101, 112] /- layersep -/,
  [108, 97, 121, 111, 117, 116] /- layout -/,
  [108, 101, 110] /- len -/,
  [108, 101, 118, 101, 108, 115] /- levels -/,
  [108, 101, 118, 101, 108, 115, 103, 97, 112] /- levelsgap -/,
  [108, 104, 101, 97, 100] /- lhead -/,
  [108, 104, 101, 105, 103, 104, 116] /- lheight -/,
  [108, 112] /- lp -/,
  [108, 116, 97, 105, 108] /- ltail -/,
  [108, 119, 105, 100, 116, 104] /- lwidth -/,
  [109, 97, 114, 103, 105, 110] /- margin -/,
  [109, 97, 120, 105, 116, 101, 114] /- maxiter -/,
  [109, 99, 108, 105, 109, 105, 116] /- mclimit -/,
  [109, 105, 110, 100, 105, 115, 116] /- mindist -/,
  [109, 105, 110, 108, 101, 110] /- minlen -/,
  [109, 111, 100, 101] /- mode -/,
  [109, 111, 100, 101, 108] /- model -/,
  [109, 111, 115, 101, 107] /- mosek -/,
  [110, 101, 119, 114, 97, 110, 107] /- newrank -/,
  [110, 111, 100, 101, 115, 101, 112] /- nodesep -/,
  [110, 111, 106, 117, 115, 116, 105, 102, 121] /- nojustify -/,
  [110, 111, 114, 109, 97, 108, 105, 122, 101] /- normalize -/,
  [110, 111, 116, 114, 97, 110, 115, 108, 97, 116, 101] /- notranslate -/,
  [110, 115, 108, 105, 109, 105, 116] /- nslimit -/,
  [110, 115, 108, 105, 109, 105, 116, 49] /- nslimit1 -/,
  [111, 114, 100, 101, 114, 105, 110, 103] /- ordering -/,
  [111, 114, 105, 101, 110, 116, 97, 116, 105, 111, 110] /- orientation -/,
  [111, 117, 116, 112, 117, 116, 111, 114, 100, 101, 114] /- outputorder -/,
  [111, 118, 101, 114, 108, 97, 112] /- overlap -/,
  [111, 118, 101, 114, 108, 97, 112, 95, 115, 99, 97, 108, 105, 110, 103] /- overlap_scaling -/,
  [111, 118, 101, 114, 108, 97, 112, 95, 115, 104, 114, 105, 110, 107] /- overlap_shrink -/,
  [112, 97, 99, 107] /- pack -/,
  [112, 97, 99, 107, 109, 111, 100, 101] /- packmode -/,
  [112, 97, 100] /- pad -/,
  [112, 97, 103, 101] /- page -/,
  [112, 97, 103, 101, 100, 105, 114] /- pagedir -/,
  [112, 101, 110, 99, 111, 108, 111, 114] /- pencolor -/,
  [112, 101, 110, 119, 105, 100, 116, 104] /- penwidth -/,
  [112, 101, 114, 105, 112, 104, 101, 114, 105, 101, 115] /- peripheries -/,
  [112, 105, 110] /- pin -/,
  [112, 111, 115] /- pos -/,
  [113, 117, 97, 100, 116, 114, 101, 101] /- quadtree -/,
  [113, 117, 97, 110, 116, 117, 109] /- quantum -/,
  [114, 97, 110, 107] /- rank -/,
  [114, 97, 110, 107, 100, 105, 114] /- rankdir -/,
  [114, 97, 110, 107, 115, 101, 112] /- ranksep -/,
  [114, 97, 116, 105, 111] /- ratio -/,
  [114, 101, 99, 116, 115] /- rects -/,
  [114, 101, 103, 117, 108, 97, 114] /- regular -/,
  [114, 101, 109, 105, 110, 99, 114, 111, 115, 115] /- remincross -/,
  [114, 101, 112, 117, 108, 115, 105, 118, 101, 102, 111, 114, 99, 101] /- repulsiveforce -/,
  [114, 101, 115, 111, 108, 117, 116, 105, 111, 110] /- resolution -/,
  [114, 111, 111, 116] /- root -/,
  [114, 111, 116, 97, 116, 101] /- rotate -/,
  [114, 111, 116, 97, 116, 105, 111, 110] /- rotation -/,
  [115, 97, 109, 101, 104, 101, 97, 100] /- samehead -/,
  [115, 97, 109, 101, 116, 97, 105, 108] /- sametail -/,
  [115, 97, 109, 112, 108, 101, 112, 111, 105, 110, 116, 115] /- samplepoints -/,
  [115, 99, 97, 108, 101] /- scale -/,
  [115, 101, 97, 114, 99, 104, 115, 105, 122, 101] /- searchsize -/,
  [115, 101, 112] /- sep -/,
  [115, 104, 97, 112, 101] /- shape -/,
  [115, 104, 97, 112, 101, 102, 105, 108, 101] /- shapefile -/,
  [115, 104, 111, 119, 98, 111, 120, 101, 115] /- showboxes -/,
  [115, 105, 100, 101, 115] /- sides -/,
  [115, 105, 122, 101] /- size -/,
  [115, 107, 101, 119] /- skew -/,
  [115, 109, 111, 111, 116, 104, 105, 110, 103] /- smoothing -/,
  [115, 111, 114, 116, 118] /- sortv -/,
  [115, 112, 108, 105, 110, 101, 115] /- splines -/,
  [115, 116, 97, 114, 116] /- start -/,
  [115, 116, 121, 108, 101] /- style -/,
  [115, 116, 121, 108, 101, 115, 104, 101, 101, 116] /- stylesheet -/,
  [116, 97, 105, 108, 85, 82, 76] /- tailURL -/,
  [116, 97, 105, 108, 95, 108, 112] /- tail_lp -/,
  [116, 97, 105, 108, 99, 108, 105, 112] /- tailclip -/,
  [116, 97, 105, 108, 104, 114, 101, 102] /- tailhref -/,
  [116, 97, 105, 108, 108, 97, 98, 101, 108] /- taillabel -/,
  [116, 97, 105, 108, 112, 111, 114, 116] /- tailport -/,
  [116, 97, 105, 108, 116, 97, 114, 103, 101, 116] /- tailtarget -/,
  [116, 97, 105, 108, 116, 111, 111, 108, 116, 105, 112] /- tailtooltip -/,
  [116, 97, 114, 103, 101, 116] /- target -/,
  [116, 111, 111, 108, 116, 105, 112] /- tooltip -/,
  [116, 114, 117, 101, 99, 111, 108, 111, 114] /- truecolor -/,
  [118, 101, 114, 116, 105, 99, 101, 115] /- vertices -/,
  [118, 105, 101, 119, 112, 111, 114, 116] /- viewport -/,
  [118, 111, 114, 111, 95, 109, 97, 114, 103, 105, 110] /- voro_margin -/,
  [119, 101, 105, 103, 104, 116] /- weight -/,
  [119, 105, 100, 116, 104] /- width -/,
  [120, 100, 111, 116, 118, 101, 114, 115, 105, 111, 110] /- xdotversion -/,
  [120, 108, 97, 98, 101, 108] /- xlabel -/,
  [120, 108, 112] /- xlp -/,
  [122] /- z -/,
  [109, 105, 110, 99, 114, 111, 115, 115] /- mincross -/,
  [115, 115, 105, 122, 101] /- ssize -/,
  [111, 117, 116, 108, 105, 110, 101] /- outline -/,
  [102] /- f -/]

end Gographviz
