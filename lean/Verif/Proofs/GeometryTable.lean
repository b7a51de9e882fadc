import Verif.Model.Geometry
import Mathlib.Analysis.Real.Pi.Bounds
import Mathlib.Analysis.SpecialFunctions.Trigonometric.Bounds
/-! # The table of sines and cosines is that of the real functions -/
namespace Verif.Geometry
open Real

/-- A sine and a cosine. -/
structure Pair where
  s : Int
  c : Int
deriving Inhabited

/-- Sines and cosines of whole degrees, in units of 10⁻²¹.  That these numbers are right is proved below. -/
def fine : List Pair := [
   ⟨0, 1000000000000000000000⟩, ⟨17452406437283512819, 999847695156391239157⟩, ⟨34899496702500971646, 999390827019095730006⟩, ⟨52335956242943832722, 998629534754573873784⟩,
   ⟨69756473744125300776, 997564050259824247613⟩, ⟨87155742747658173558, 996194698091745532295⟩, ⟨104528463267653471400, 994521895368273336923⟩, ⟨121869343405147481113, 992546151641322034980⟩,
   ⟨139173100960065444112, 990268068741570315084⟩, ⟨156434465040230869010, 987688340595137726190⟩, ⟨173648177666930348852, 984807753012208059367⟩, ⟨190808995376544812405, 981627183447663953497⟩,
   ⟨207911690817759337102, 978147600733805637929⟩, ⟨224951054343864998051, 974370064785235228540⟩, ⟨241921895599667722560, 970295726275996472306⟩, ⟨258819045102520762349, 965925826289068286750⟩,
   ⟨275637355816999185650, 961261695938318861916⟩, ⟨292371704722736728097, 956304755963035481339⟩, ⟨309016994374947424102, 951056516295153572116⟩, ⟨325568154457156668714, 945518575599316810348⟩,
   ⟨342020143325668733044, 939692620785908384054⟩, ⟨358367949545300273484, 933580426497201748990⟩, ⟨374606593415912035415, 927183854566787400806⟩, ⟨390731128489273755062, 920504853452440327397⟩,
   ⟨406736643075800207754, 913545457642600895502⟩, ⟨422618261740699436187, 906307787036649963243⟩, ⟨438371146789077417453, 898794046299166992782⟩, ⟨453990499739546791560, 891006524188367862360⟩,
   ⟨469471562785890775959, 882947592858926942032⟩, ⟨484809620246337029075, 874619707139395800285⟩, ⟨500000000000000000000, 866025403784438646764⟩, ⟨515038074910054210082, 857167300702112287465⟩,
   ⟨529919264233204954047, 848048096156425970386⟩, ⟨544639035015027082224, 838670567945424029638⟩, ⟨559192903470746830160, 829037572555041692006⟩, ⟨573576436351046096108, 819152044288991789684⟩,
   ⟨587785252292473129169, 809016994374947424102⟩, ⟨601815023152048279918, 798635510047292846284⟩, ⟨615661475325658279669, 788010753606721956694⟩, ⟨629320391049837452706, 777145961456970879980⟩,
   ⟨642787609686539326323, 766044443118978035202⟩, ⟨656059028990507284782, 754709580222771997943⟩, ⟨669130606358858213826, 743144825477394235015⟩, ⟨681998360062498500442, 731353701619170483288⟩,
   ⟨694658370458997286656, 719339800338651139356⟩, ⟨707106781186547524401, 707106781186547524401⟩, ⟨719339800338651139356, 694658370458997286656⟩, ⟨731353701619170483288, 681998360062498500442⟩,
   ⟨743144825477394235015, 669130606358858213826⟩, ⟨754709580222771997943, 656059028990507284782⟩, ⟨766044443118978035202, 642787609686539326323⟩, ⟨777145961456970879980, 629320391049837452706⟩,
   ⟨788010753606721956694, 615661475325658279669⟩, ⟨798635510047292846284, 601815023152048279918⟩, ⟨809016994374947424102, 587785252292473129169⟩, ⟨819152044288991789684, 573576436351046096108⟩,
   ⟨829037572555041692006, 559192903470746830160⟩, ⟨838670567945424029638, 544639035015027082224⟩, ⟨848048096156425970386, 529919264233204954047⟩, ⟨857167300702112287465, 515038074910054210082⟩,
   ⟨866025403784438646764, 500000000000000000000⟩, ⟨874619707139395800285, 484809620246337029075⟩, ⟨882947592858926942032, 469471562785890775959⟩, ⟨891006524188367862360, 453990499739546791560⟩,
   ⟨898794046299166992782, 438371146789077417453⟩, ⟨906307787036649963243, 422618261740699436187⟩, ⟨913545457642600895502, 406736643075800207754⟩, ⟨920504853452440327397, 390731128489273755062⟩,
   ⟨927183854566787400806, 374606593415912035415⟩, ⟨933580426497201748990, 358367949545300273484⟩, ⟨939692620785908384054, 342020143325668733044⟩, ⟨945518575599316810348, 325568154457156668714⟩,
   ⟨951056516295153572116, 309016994374947424102⟩, ⟨956304755963035481339, 292371704722736728097⟩, ⟨961261695938318861916, 275637355816999185650⟩, ⟨965925826289068286750, 258819045102520762349⟩,
   ⟨970295726275996472306, 241921895599667722560⟩, ⟨974370064785235228540, 224951054343864998051⟩, ⟨978147600733805637929, 207911690817759337102⟩, ⟨981627183447663953497, 190808995376544812405⟩,
   ⟨984807753012208059367, 173648177666930348852⟩, ⟨987688340595137726190, 156434465040230869010⟩, ⟨990268068741570315084, 139173100960065444112⟩, ⟨992546151641322034980, 121869343405147481113⟩,
   ⟨994521895368273336923, 104528463267653471400⟩, ⟨996194698091745532295, 87155742747658173558⟩, ⟨997564050259824247613, 69756473744125300776⟩, ⟨998629534754573873784, 52335956242943832722⟩,
   ⟨999390827019095730006, 34899496702500971646⟩, ⟨999847695156391239157, 17452406437283512819⟩, ⟨1000000000000000000000, 0⟩, ⟨999847695156391239157, -17452406437283512819⟩,
   ⟨999390827019095730006, -34899496702500971646⟩, ⟨998629534754573873784, -52335956242943832722⟩, ⟨997564050259824247613, -69756473744125300776⟩, ⟨996194698091745532295, -87155742747658173558⟩,
   ⟨994521895368273336923, -104528463267653471400⟩, ⟨992546151641322034980, -121869343405147481113⟩, ⟨990268068741570315084, -139173100960065444112⟩, ⟨987688340595137726190, -156434465040230869010⟩,
   ⟨984807753012208059367, -173648177666930348852⟩, ⟨981627183447663953497, -190808995376544812405⟩, ⟨978147600733805637929, -207911690817759337102⟩, ⟨974370064785235228540, -224951054343864998051⟩,
   ⟨970295726275996472306, -241921895599667722560⟩, ⟨965925826289068286750, -258819045102520762349⟩, ⟨961261695938318861916, -275637355816999185650⟩, ⟨956304755963035481339, -292371704722736728097⟩,
   ⟨951056516295153572116, -309016994374947424102⟩, ⟨945518575599316810348, -325568154457156668714⟩, ⟨939692620785908384054, -342020143325668733044⟩, ⟨933580426497201748990, -358367949545300273484⟩,
   ⟨927183854566787400806, -374606593415912035415⟩, ⟨920504853452440327397, -390731128489273755062⟩, ⟨913545457642600895502, -406736643075800207754⟩, ⟨906307787036649963243, -422618261740699436187⟩,
   ⟨898794046299166992782, -438371146789077417453⟩, ⟨891006524188367862360, -453990499739546791560⟩, ⟨882947592858926942032, -469471562785890775959⟩, ⟨874619707139395800285, -484809620246337029075⟩,
   ⟨866025403784438646764, -500000000000000000000⟩, ⟨857167300702112287465, -515038074910054210082⟩, ⟨848048096156425970386, -529919264233204954047⟩, ⟨838670567945424029638, -544639035015027082224⟩,
   ⟨829037572555041692006, -559192903470746830160⟩, ⟨819152044288991789684, -573576436351046096108⟩, ⟨809016994374947424102, -587785252292473129169⟩, ⟨798635510047292846284, -601815023152048279918⟩,
   ⟨788010753606721956694, -615661475325658279669⟩, ⟨777145961456970879980, -629320391049837452706⟩, ⟨766044443118978035202, -642787609686539326323⟩, ⟨754709580222771997943, -656059028990507284782⟩,
   ⟨743144825477394235015, -669130606358858213826⟩, ⟨731353701619170483288, -681998360062498500442⟩, ⟨719339800338651139356, -694658370458997286656⟩, ⟨707106781186547524401, -707106781186547524401⟩,
   ⟨694658370458997286656, -719339800338651139356⟩, ⟨681998360062498500442, -731353701619170483288⟩, ⟨669130606358858213826, -743144825477394235015⟩, ⟨656059028990507284782, -754709580222771997943⟩,
   ⟨642787609686539326323, -766044443118978035202⟩, ⟨629320391049837452706, -777145961456970879980⟩, ⟨615661475325658279669, -788010753606721956694⟩, ⟨601815023152048279918, -798635510047292846284⟩,
   ⟨587785252292473129169, -809016994374947424102⟩, ⟨573576436351046096108, -819152044288991789684⟩, ⟨559192903470746830160, -829037572555041692006⟩, ⟨544639035015027082224, -838670567945424029638⟩,
   ⟨529919264233204954047, -848048096156425970386⟩, ⟨515038074910054210082, -857167300702112287465⟩, ⟨500000000000000000000, -866025403784438646764⟩, ⟨484809620246337029075, -874619707139395800285⟩,
   ⟨469471562785890775959, -882947592858926942032⟩, ⟨453990499739546791560, -891006524188367862360⟩, ⟨438371146789077417453, -898794046299166992782⟩, ⟨422618261740699436187, -906307787036649963243⟩,
   ⟨406736643075800207754, -913545457642600895502⟩, ⟨390731128489273755062, -920504853452440327397⟩, ⟨374606593415912035415, -927183854566787400806⟩, ⟨358367949545300273484, -933580426497201748990⟩,
   ⟨342020143325668733044, -939692620785908384054⟩, ⟨325568154457156668714, -945518575599316810348⟩, ⟨309016994374947424102, -951056516295153572116⟩, ⟨292371704722736728097, -956304755963035481339⟩,
   ⟨275637355816999185650, -961261695938318861916⟩, ⟨258819045102520762349, -965925826289068286750⟩, ⟨241921895599667722560, -970295726275996472306⟩, ⟨224951054343864998051, -974370064785235228540⟩,
   ⟨207911690817759337102, -978147600733805637929⟩, ⟨190808995376544812405, -981627183447663953497⟩, ⟨173648177666930348852, -984807753012208059367⟩, ⟨156434465040230869010, -987688340595137726190⟩,
   ⟨139173100960065444112, -990268068741570315084⟩, ⟨121869343405147481113, -992546151641322034980⟩, ⟨104528463267653471400, -994521895368273336923⟩, ⟨87155742747658173558, -996194698091745532295⟩,
   ⟨69756473744125300776, -997564050259824247613⟩, ⟨52335956242943832722, -998629534754573873784⟩, ⟨34899496702500971646, -999390827019095730006⟩, ⟨17452406437283512819, -999847695156391239157⟩,
   ⟨0, -1000000000000000000000⟩, ⟨-17452406437283512819, -999847695156391239157⟩, ⟨-34899496702500971646, -999390827019095730006⟩, ⟨-52335956242943832722, -998629534754573873784⟩,
   ⟨-69756473744125300776, -997564050259824247613⟩, ⟨-87155742747658173558, -996194698091745532295⟩, ⟨-104528463267653471400, -994521895368273336923⟩, ⟨-121869343405147481113, -992546151641322034980⟩,
   ⟨-139173100960065444112, -990268068741570315084⟩, ⟨-156434465040230869010, -987688340595137726190⟩, ⟨-173648177666930348852, -984807753012208059367⟩, ⟨-190808995376544812405, -981627183447663953497⟩,
   ⟨-207911690817759337102, -978147600733805637929⟩, ⟨-224951054343864998051, -974370064785235228540⟩, ⟨-241921895599667722560, -970295726275996472306⟩, ⟨-258819045102520762349, -965925826289068286750⟩,
   ⟨-275637355816999185650, -961261695938318861916⟩, ⟨-292371704722736728097, -956304755963035481339⟩, ⟨-309016994374947424102, -951056516295153572116⟩, ⟨-325568154457156668714, -945518575599316810348⟩,
   ⟨-342020143325668733044, -939692620785908384054⟩, ⟨-358367949545300273484, -933580426497201748990⟩, ⟨-374606593415912035415, -927183854566787400806⟩, ⟨-390731128489273755062, -920504853452440327397⟩,
   ⟨-406736643075800207754, -913545457642600895502⟩, ⟨-422618261740699436187, -906307787036649963243⟩, ⟨-438371146789077417453, -898794046299166992782⟩, ⟨-453990499739546791560, -891006524188367862360⟩,
   ⟨-469471562785890775959, -882947592858926942032⟩, ⟨-484809620246337029075, -874619707139395800285⟩, ⟨-500000000000000000000, -866025403784438646764⟩, ⟨-515038074910054210082, -857167300702112287465⟩,
   ⟨-529919264233204954047, -848048096156425970386⟩, ⟨-544639035015027082224, -838670567945424029638⟩, ⟨-559192903470746830160, -829037572555041692006⟩, ⟨-573576436351046096108, -819152044288991789684⟩,
   ⟨-587785252292473129169, -809016994374947424102⟩, ⟨-601815023152048279918, -798635510047292846284⟩, ⟨-615661475325658279669, -788010753606721956694⟩, ⟨-629320391049837452706, -777145961456970879980⟩,
   ⟨-642787609686539326323, -766044443118978035202⟩, ⟨-656059028990507284782, -754709580222771997943⟩, ⟨-669130606358858213826, -743144825477394235015⟩, ⟨-681998360062498500442, -731353701619170483288⟩,
   ⟨-694658370458997286656, -719339800338651139356⟩, ⟨-707106781186547524401, -707106781186547524401⟩, ⟨-719339800338651139356, -694658370458997286656⟩, ⟨-731353701619170483288, -681998360062498500442⟩,
   ⟨-743144825477394235015, -669130606358858213826⟩, ⟨-754709580222771997943, -656059028990507284782⟩, ⟨-766044443118978035202, -642787609686539326323⟩, ⟨-777145961456970879980, -629320391049837452706⟩,
   ⟨-788010753606721956694, -615661475325658279669⟩, ⟨-798635510047292846284, -601815023152048279918⟩, ⟨-809016994374947424102, -587785252292473129169⟩, ⟨-819152044288991789684, -573576436351046096108⟩,
   ⟨-829037572555041692006, -559192903470746830160⟩, ⟨-838670567945424029638, -544639035015027082224⟩, ⟨-848048096156425970386, -529919264233204954047⟩, ⟨-857167300702112287465, -515038074910054210082⟩,
   ⟨-866025403784438646764, -500000000000000000000⟩, ⟨-874619707139395800285, -484809620246337029075⟩, ⟨-882947592858926942032, -469471562785890775959⟩, ⟨-891006524188367862360, -453990499739546791560⟩,
   ⟨-898794046299166992782, -438371146789077417453⟩, ⟨-906307787036649963243, -422618261740699436187⟩, ⟨-913545457642600895502, -406736643075800207754⟩, ⟨-920504853452440327397, -390731128489273755062⟩,
   ⟨-927183854566787400806, -374606593415912035415⟩, ⟨-933580426497201748990, -358367949545300273484⟩, ⟨-939692620785908384054, -342020143325668733044⟩, ⟨-945518575599316810348, -325568154457156668714⟩,
   ⟨-951056516295153572116, -309016994374947424102⟩, ⟨-956304755963035481339, -292371704722736728097⟩, ⟨-961261695938318861916, -275637355816999185650⟩, ⟨-965925826289068286750, -258819045102520762349⟩,
   ⟨-970295726275996472306, -241921895599667722560⟩, ⟨-974370064785235228540, -224951054343864998051⟩, ⟨-978147600733805637929, -207911690817759337102⟩, ⟨-981627183447663953497, -190808995376544812405⟩,
   ⟨-984807753012208059367, -173648177666930348852⟩, ⟨-987688340595137726190, -156434465040230869010⟩, ⟨-990268068741570315084, -139173100960065444112⟩, ⟨-992546151641322034980, -121869343405147481113⟩,
   ⟨-994521895368273336923, -104528463267653471400⟩, ⟨-996194698091745532295, -87155742747658173558⟩, ⟨-997564050259824247613, -69756473744125300776⟩, ⟨-998629534754573873784, -52335956242943832722⟩,
   ⟨-999390827019095730006, -34899496702500971646⟩, ⟨-999847695156391239157, -17452406437283512819⟩, ⟨-1000000000000000000000, 0⟩, ⟨-999847695156391239157, 17452406437283512819⟩,
   ⟨-999390827019095730006, 34899496702500971646⟩, ⟨-998629534754573873784, 52335956242943832722⟩, ⟨-997564050259824247613, 69756473744125300776⟩, ⟨-996194698091745532295, 87155742747658173558⟩,
   ⟨-994521895368273336923, 104528463267653471400⟩, ⟨-992546151641322034980, 121869343405147481113⟩, ⟨-990268068741570315084, 139173100960065444112⟩, ⟨-987688340595137726190, 156434465040230869010⟩,
   ⟨-984807753012208059367, 173648177666930348852⟩, ⟨-981627183447663953497, 190808995376544812405⟩, ⟨-978147600733805637929, 207911690817759337102⟩, ⟨-974370064785235228540, 224951054343864998051⟩,
   ⟨-970295726275996472306, 241921895599667722560⟩, ⟨-965925826289068286750, 258819045102520762349⟩, ⟨-961261695938318861916, 275637355816999185650⟩, ⟨-956304755963035481339, 292371704722736728097⟩,
   ⟨-951056516295153572116, 309016994374947424102⟩, ⟨-945518575599316810348, 325568154457156668714⟩, ⟨-939692620785908384054, 342020143325668733044⟩, ⟨-933580426497201748990, 358367949545300273484⟩,
   ⟨-927183854566787400806, 374606593415912035415⟩, ⟨-920504853452440327397, 390731128489273755062⟩, ⟨-913545457642600895502, 406736643075800207754⟩, ⟨-906307787036649963243, 422618261740699436187⟩,
   ⟨-898794046299166992782, 438371146789077417453⟩, ⟨-891006524188367862360, 453990499739546791560⟩, ⟨-882947592858926942032, 469471562785890775959⟩, ⟨-874619707139395800285, 484809620246337029075⟩,
   ⟨-866025403784438646764, 500000000000000000000⟩, ⟨-857167300702112287465, 515038074910054210082⟩, ⟨-848048096156425970386, 529919264233204954047⟩, ⟨-838670567945424029638, 544639035015027082224⟩,
   ⟨-829037572555041692006, 559192903470746830160⟩, ⟨-819152044288991789684, 573576436351046096108⟩, ⟨-809016994374947424102, 587785252292473129169⟩, ⟨-798635510047292846284, 601815023152048279918⟩,
   ⟨-788010753606721956694, 615661475325658279669⟩, ⟨-777145961456970879980, 629320391049837452706⟩, ⟨-766044443118978035202, 642787609686539326323⟩, ⟨-754709580222771997943, 656059028990507284782⟩,
   ⟨-743144825477394235015, 669130606358858213826⟩, ⟨-731353701619170483288, 681998360062498500442⟩, ⟨-719339800338651139356, 694658370458997286656⟩, ⟨-707106781186547524401, 707106781186547524401⟩,
   ⟨-694658370458997286656, 719339800338651139356⟩, ⟨-681998360062498500442, 731353701619170483288⟩, ⟨-669130606358858213826, 743144825477394235015⟩, ⟨-656059028990507284782, 754709580222771997943⟩,
   ⟨-642787609686539326323, 766044443118978035202⟩, ⟨-629320391049837452706, 777145961456970879980⟩, ⟨-615661475325658279669, 788010753606721956694⟩, ⟨-601815023152048279918, 798635510047292846284⟩,
   ⟨-587785252292473129169, 809016994374947424102⟩, ⟨-573576436351046096108, 819152044288991789684⟩, ⟨-559192903470746830160, 829037572555041692006⟩, ⟨-544639035015027082224, 838670567945424029638⟩,
   ⟨-529919264233204954047, 848048096156425970386⟩, ⟨-515038074910054210082, 857167300702112287465⟩, ⟨-500000000000000000000, 866025403784438646764⟩, ⟨-484809620246337029075, 874619707139395800285⟩,
   ⟨-469471562785890775959, 882947592858926942032⟩, ⟨-453990499739546791560, 891006524188367862360⟩, ⟨-438371146789077417453, 898794046299166992782⟩, ⟨-422618261740699436187, 906307787036649963243⟩,
   ⟨-406736643075800207754, 913545457642600895502⟩, ⟨-390731128489273755062, 920504853452440327397⟩, ⟨-374606593415912035415, 927183854566787400806⟩, ⟨-358367949545300273484, 933580426497201748990⟩,
   ⟨-342020143325668733044, 939692620785908384054⟩, ⟨-325568154457156668714, 945518575599316810348⟩, ⟨-309016994374947424102, 951056516295153572116⟩, ⟨-292371704722736728097, 956304755963035481339⟩,
   ⟨-275637355816999185650, 961261695938318861916⟩, ⟨-258819045102520762349, 965925826289068286750⟩, ⟨-241921895599667722560, 970295726275996472306⟩, ⟨-224951054343864998051, 974370064785235228540⟩,
   ⟨-207911690817759337102, 978147600733805637929⟩, ⟨-190808995376544812405, 981627183447663953497⟩, ⟨-173648177666930348852, 984807753012208059367⟩, ⟨-156434465040230869010, 987688340595137726190⟩,
   ⟨-139173100960065444112, 990268068741570315084⟩, ⟨-121869343405147481113, 992546151641322034980⟩, ⟨-104528463267653471400, 994521895368273336923⟩, ⟨-87155742747658173558, 996194698091745532295⟩,
   ⟨-69756473744125300776, 997564050259824247613⟩, ⟨-52335956242943832722, 998629534754573873784⟩, ⟨-34899496702500971646, 999390827019095730006⟩, ⟨-17452406437283512819, 999847695156391239157⟩]

/-- One degree. -/
noncomputable def deg : ℝ := π / 180

theorem deg_approx : |deg - 0.0174532925199432957692| ≤ 1 / 10 ^ 21 := by
  have h1 := pi_gt_d20
  have h2 := pi_lt_d20
  unfold deg
  rw [abs_le]
  constructor <;> norm_num at * <;> linarith

theorem exp_sum (x : ℝ) : (∑ m ∈ Finset.range 10, (x * Complex.I : ℂ) ^ m / m.factorial)
    = ((1 - x ^ 2 / 2 + x ^ 4 / 24 - x ^ 6 / 720 + x ^ 8 / 40320 : ℝ) : ℂ) + ((x - x ^ 3 / 6 + x ^ 5 / 120 - x ^ 7 / 5040 + x ^ 9 / 362880 : ℝ) : ℂ) * Complex.I := by
  have h2 : Complex.I ^ 2 = -1 := Complex.I_sq
  have h3 : Complex.I ^ 3 = -Complex.I := by rw [pow_succ, h2]; ring
  have h4 : Complex.I ^ 4 = 1 := by rw [pow_succ, h3]; ring_nf; rw [h2]; ring
  have h5 : Complex.I ^ 5 = Complex.I := by rw [pow_succ, h4]; ring
  have h6 : Complex.I ^ 6 = -1 := by rw [pow_succ, h5, ← sq, h2]
  have h7 : Complex.I ^ 7 = -Complex.I := by rw [pow_succ, h6]; ring
  have h8 : Complex.I ^ 8 = 1 := by rw [show (8 : ℕ) = 4 * 2 by rfl, pow_mul, h4]; ring
  have h9 : Complex.I ^ 9 = Complex.I := by rw [pow_succ, h8]; ring
  simp only [Finset.sum_range_succ, Finset.sum_range_zero, mul_pow, h2, h3, h4, h5, h6, h7, h8, h9, Nat.factorial]
  push_cast
  ring

theorem exp_approx (x : ℝ) (hx : |x| ≤ 1 / 50) :
    |cos x - (1 - x ^ 2 / 2 + x ^ 4 / 24 - x ^ 6 / 720 + x ^ 8 / 40320)| ≤ 1 / 10 ^ 21 ∧
    |sin x - (x - x ^ 3 / 6 + x ^ 5 / 120 - x ^ 7 / 5040 + x ^ 9 / 362880)| ≤ 1 / 10 ^ 21 := by
  have hn : ‖(x : ℂ) * Complex.I‖ = |x| := by simp
  have h := Complex.exp_bound (x := x * Complex.I) (by rw [hn]; linarith) (n := 10) (by decide)
  rw [hn] at h
  have hb : |x| ^ 10 * (((10 : ℕ).succ : ℝ) * (((10 : ℕ).factorial : ℝ) * ((10 : ℕ) : ℝ))⁻¹) ≤ 1 / 10 ^ 21 := by
    have : |x| ^ 10 ≤ (1 / 50) ^ 10 := by gcongr
    calc |x| ^ 10 * (((10 : ℕ).succ : ℝ) * (((10 : ℕ).factorial : ℝ) * ((10 : ℕ) : ℝ))⁻¹)
        ≤ (1 / 50) ^ 10 * (((10 : ℕ).succ : ℝ) * (((10 : ℕ).factorial : ℝ) * ((10 : ℕ) : ℝ))⁻¹) := by gcongr
      _ ≤ 1 / 10 ^ 21 := by norm_num [Nat.factorial]
  have e1 : (Complex.exp (x * Complex.I) - ∑ m ∈ Finset.range 10, (x * Complex.I : ℂ) ^ m / m.factorial).re
      = cos x - (1 - x ^ 2 / 2 + x ^ 4 / 24 - x ^ 6 / 720 + x ^ 8 / 40320) := by
    rw [exp_sum, Complex.exp_mul_I, ← Complex.ofReal_cos, ← Complex.ofReal_sin]; simp only [Complex.sub_re, Complex.add_re, Complex.mul_re, Complex.ofReal_re, Complex.ofReal_im, Complex.I_re, Complex.I_im]; ring
  have e2 : (Complex.exp (x * Complex.I) - ∑ m ∈ Finset.range 10, (x * Complex.I : ℂ) ^ m / m.factorial).im
      = sin x - (x - x ^ 3 / 6 + x ^ 5 / 120 - x ^ 7 / 5040 + x ^ 9 / 362880) := by
    rw [exp_sum, Complex.exp_mul_I, ← Complex.ofReal_cos, ← Complex.ofReal_sin]; simp only [Complex.sub_im, Complex.add_im, Complex.mul_im, Complex.ofReal_re, Complex.ofReal_im, Complex.I_re, Complex.I_im]; ring
  constructor
  · rw [← e1]; exact (Complex.abs_re_le_norm _).trans (h.trans hb)
  · rw [← e2]; exact (Complex.abs_im_le_norm _).trans (h.trans hb)

/-- An entry of the fine table. -/
def fineAt (k : Nat) : Pair := fine.getD k default

theorem abs_of_approx {a b c e1 e2 e3 : ℝ} (h1 : |a - b| ≤ e1) (h2 : |b - c| ≤ e2) (h : e1 + e2 ≤ e3) : |a - c| ≤ e3 :=
  (abs_sub_le a b c).trans (by linarith)

theorem one_approx : |cos deg - (fineAt 1).c / 10 ^ 21| ≤ 3 / 10 ^ 21 ∧ |sin deg - (fineAt 1).s / 10 ^ 21| ≤ 3 / 10 ^ 21 := by
  have h := deg_approx
  have h1 := exp_approx 0.0174532925199432957692 (by rw [abs_of_pos] <;> norm_num)
  have hc : (fineAt 1).c = 999847695156391239157 := rfl
  have hs : (fineAt 1).s = 17452406437283512819 := rfl
  rw [hc, hs]
  constructor
  · refine abs_of_approx ((abs_cos_sub_cos_le _ _).trans h) (abs_of_approx h1.1 (e2 := 1 / 10 ^ 21) ?_ (le_refl _)) (by norm_num)
    rw [abs_le]; constructor <;> norm_num
  · refine abs_of_approx ((abs_sin_sub_sin_le _ _).trans h) (abs_of_approx h1.2 (e2 := 1 / 10 ^ 21) ?_ (le_refl _)) (by norm_num)
    rw [abs_le]; constructor <;> norm_num

/-- Each entry of the fine table follows from the previous one by the addition theorems, and is not too large. -/
theorem fine_steps : ∀ k < 359,
    ((fineAt (k + 1)).c * 10 ^ 21 - ((fineAt k).c * (fineAt 1).c - (fineAt k).s * (fineAt 1).s)).natAbs ≤ 2 * 10 ^ 21 ∧
    ((fineAt (k + 1)).s * 10 ^ 21 - ((fineAt k).s * (fineAt 1).c + (fineAt k).c * (fineAt 1).s)).natAbs ≤ 2 * 10 ^ 21 := by decide +kernel

theorem natAbs_real {a : Int} {n : Nat} (h : a.natAbs ≤ n) : |(a : ℝ)| ≤ n := by
  rw [← Int.cast_abs]
  have : |a| ≤ n := by rw [Int.abs_eq_natAbs]; exact_mod_cast h
  exact_mod_cast this

/-- A product of approximations. -/
theorem prod_approx {a b a' b' e d : ℝ} (ha : |a - a'| ≤ e) (hb : |b - b'| ≤ d) (ha' : |a| ≤ 1) (hb' : |b'| ≤ B) : |a * b - a' * b'| ≤ d + e * B := by
  have h : a * b - a' * b' = a * (b - b') + (a - a') * b' := by ring
  rw [h]
  have he : 0 ≤ e := (abs_nonneg _).trans ha
  refine (abs_add_le _ _).trans ?_
  rw [abs_mul, abs_mul]
  have h1 : |a| * |b - b'| ≤ 1 * d := mul_le_mul ha' hb (abs_nonneg _) zero_le_one
  have h2 : |a - a'| * |b'| ≤ e * B := mul_le_mul ha hb' (abs_nonneg _) he
  linarith

theorem fine_approx (k : Nat) (hk : k < 360) :
    |cos (k * deg) - (fineAt k).c / 10 ^ 21| ≤ 1.02 ^ k * 4 / 10 ^ 18 ∧ |sin (k * deg) - (fineAt k).s / 10 ^ 21| ≤ 1.02 ^ k * 4 / 10 ^ 18 := by
  induction k with
  | zero =>
    have hc : (fineAt 0).c = 1000000000000000000000 := rfl
    have hs : (fineAt 0).s = 0 := rfl
    rw [hc, hs]
    norm_num
  | succ k ih =>
    obtain ⟨ic, is⟩ := ih (by omega)
    obtain ⟨oc, os⟩ := one_approx
    obtain ⟨sc, ss⟩ := fine_steps k (by omega)
    have sc := natAbs_real sc
    have ss := natAbs_real ss
    push_cast at sc ss
    generalize hCk : ((fineAt k).c : ℝ) = Ck at *
    generalize hSk : ((fineAt k).s : ℝ) = Sk at *
    generalize hC : ((fineAt (k + 1)).c : ℝ) = C at *
    generalize hS : ((fineAt (k + 1)).s : ℝ) = S at *
    have hc1 : ((fineAt 1).c : ℝ) = 999847695156391239157 := by rw [show (fineAt 1).c = 999847695156391239157 from rfl]; norm_num
    have hs1 : ((fineAt 1).s : ℝ) = 17452406437283512819 := by rw [show (fineAt 1).s = 17452406437283512819 from rfl]; norm_num
    rw [hc1] at oc sc ss
    rw [hs1] at os sc ss
    have bc : |(999847695156391239157 : ℝ) / 10 ^ 21| ≤ 0.9999 := by rw [abs_of_pos] <;> norm_num
    have bs : |(17452406437283512819 : ℝ) / 10 ^ 21| ≤ 0.0175 := by rw [abs_of_pos] <;> norm_num
    have p1 := prod_approx ic oc (abs_cos_le_one _) bc
    have p2 := prod_approx is os (abs_sin_le_one _) bs
    have p3 := prod_approx is oc (abs_sin_le_one _) bc
    have p4 := prod_approx ic os (abs_cos_le_one _) bs
    have hpos : (1 : ℝ) ≤ 1.02 ^ k := one_le_pow₀ (by norm_num)
    have hadd : ((k + 1 : ℕ) : ℝ) * deg = k * deg + deg := by push_cast; ring
    rw [hadd, cos_add, sin_add, show (1.02 : ℝ) ^ (k + 1) = 1.02 ^ k * 1.02 from pow_succ _ _]
    generalize (1.02 : ℝ) ^ k = P at *
    clear ih hC hS hCk hSk hc1 hs1 bc bs hadd
    obtain ⟨a1, a2⟩ := abs_le.mp p1
    obtain ⟨a3, a4⟩ := abs_le.mp p2
    obtain ⟨a5, a6⟩ := abs_le.mp p3
    obtain ⟨a7, a8⟩ := abs_le.mp p4
    obtain ⟨b1, b2⟩ := abs_le.mp sc
    obtain ⟨b3, b4⟩ := abs_le.mp ss
    constructor
    · rw [abs_le]; constructor <;> (norm_num at *; linarith)
    · rw [abs_le]; constructor <;> (norm_num at *; linarith)

set_option exponentiation.threshold 400 in
theorem fine_close (k : Nat) (hk : k < 360) :
    |cos (k * deg) - (fineAt k).c / 10 ^ 21| ≤ 5 / 10 ^ 15 ∧ |sin (k * deg) - (fineAt k).s / 10 ^ 21| ≤ 5 / 10 ^ 15 := by
  have h : (1.02 : ℝ) ^ k * 4 / 10 ^ 18 ≤ 5 / 10 ^ 15 := by
    have : (1.02 : ℝ) ^ k ≤ 1.02 ^ 359 := pow_le_pow_right₀ (by norm_num) (by omega)
    have h2 : (1.02 : ℝ) ^ 359 * 4 / 10 ^ 18 ≤ 5 / 10 ^ 15 := by norm_num
    refine le_trans ?_ h2
    gcongr
  exact ⟨(fine_approx k hk).1.trans h, (fine_approx k hk).2.trans h⟩

/-- An entry of the table. -/
def entry (k : Nat) : Trig := table.getD k default

theorem entry_fine : ∀ k < 360, ((entry k).sin * 10 ^ 11 - (fineAt k).s).natAbs ≤ 5 * 10 ^ 10 ∧ ((entry k).cos * 10 ^ 11 - (fineAt k).c).natAbs ≤ 5 * 10 ^ 10 := by
  decide +kernel

theorem entry_close (k : Nat) (hk : k < 360) :
    |((entry k).sin : ℝ) / 10 ^ 10 - sin (k * deg)| ≤ 5.001 / 10 ^ 11 ∧ |((entry k).cos : ℝ) / 10 ^ 10 - cos (k * deg)| ≤ 5.001 / 10 ^ 11 := by
  obtain ⟨h1, h2⟩ := entry_fine k hk
  obtain ⟨h3, h4⟩ := fine_close k hk
  have h1 := natAbs_real h1
  have h2 := natAbs_real h2
  push_cast at h1 h2
  rw [abs_sub_comm] at h3 h4
  constructor
  · refine abs_of_approx (e1 := 5 / 10 ^ 11) ?_ h4 (by norm_num)
    rw [abs_le] at *
    constructor <;> linarith [h1.1, h1.2]
  · refine abs_of_approx (e1 := 5 / 10 ^ 11) ?_ h3 (by norm_num)
    rw [abs_le] at *
    constructor <;> linarith [h2.1, h2.2]

/-- Large tangents have eight decimal places, others nine. -/
def tanError (t : Int) : Nat := if t.natAbs < 10 ^ 11 then 5 else 50

theorem entry_tan_fine : ∀ k < 360, k ≠ 90 → k ≠ 270 → ∃ t, (entry k).tan = some t ∧ (t * (fineAt k).c - (fineAt k).s * 10 ^ 10).natAbs ≤ tanError t * (fineAt k).c.natAbs ∧
    17 * 10 ^ 18 ≤ (fineAt k).c.natAbs ∧ t.natAbs ≤ 58 * 10 ^ 10 := by
  have h : ∀ k < 360, k ≠ 90 → k ≠ 270 → (entry k).tan.isSome ∧ ((entry k).tan.getD 0 * (fineAt k).c - (fineAt k).s * 10 ^ 10).natAbs ≤ tanError ((entry k).tan.getD 0) * (fineAt k).c.natAbs ∧
    17 * 10 ^ 18 ≤ (fineAt k).c.natAbs ∧ ((entry k).tan.getD 0).natAbs ≤ 58 * 10 ^ 10 := by decide +kernel
  intro k hk h1 h2
  obtain ⟨h3, h4⟩ := h k hk h1 h2
  rw [Option.isSome_iff_exists] at h3
  obtain ⟨t, ht⟩ := h3
  rw [ht] at h4
  exact ⟨t, ht, h4⟩

end Verif.Geometry
