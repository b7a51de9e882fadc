/-!
# Angles and vectors

Models `poseidon/src/geometry.cpp` and parts of `poseidon/geometry.hpp`.  The compiler may evaluate some of these functions at compile
time with functions of the C library instead (`ASTERIA_CONSTANT_P`); that is not modelled.
-/
namespace Verif.Geometry

/-- `trigonometric`, in units of 10⁻¹⁰; `none` is infinity.  Simplified: the literals are decimal fractions here; the compiler rounds them to
floating-point numbers.  (details/trigonometry.hpp) -/
structure Trig where
  sin : Int
  cos : Int
  tan : Option Int
deriving DecidableEq, Repr, Inhabited

/-- `s_trig_table`.  (geometry.cpp:9-371) -/
def table : List Trig := [
   ⟨0, 10000000000, some 0⟩, ⟨174524064, 9998476952, some 174550650⟩, ⟨348994967, 9993908270, some 349207690⟩, ⟨523359562, 9986295348, some 524077790⟩,
   ⟨697564737, 9975640503, some 699268120⟩, ⟨871557427, 9961946981, some 874886640⟩, ⟨1045284633, 9945218954, some 1051042350⟩, ⟨1218693434, 9925461516, some 1227845610⟩,
   ⟨1391731010, 9902680687, some 1405408350⟩, ⟨1564344650, 9876883406, some 1583844400⟩, ⟨1736481777, 9848077530, some 1763269810⟩, ⟨1908089954, 9816271834, some 1943803090⟩,
   ⟨2079116908, 9781476007, some 2125565620⟩, ⟨2249510543, 9743700648, some 2308681910⟩, ⟨2419218956, 9702957263, some 2493280030⟩, ⟨2588190451, 9659258263, some 2679491920⟩,
   ⟨2756373558, 9612616959, some 2867453860⟩, ⟨2923717047, 9563047560, some 3057306810⟩, ⟨3090169944, 9510565163, some 3249196960⟩, ⟨3255681545, 9455185756, some 3443276130⟩,
   ⟨3420201433, 9396926208, some 3639702340⟩, ⟨3583679495, 9335804265, some 3838640350⟩, ⟨3746065934, 9271838546, some 4040262260⟩, ⟨3907311285, 9205048535, some 4244748160⟩,
   ⟨4067366431, 9135454576, some 4452286850⟩, ⟨4226182617, 9063077870, some 4663076580⟩, ⟨4383711468, 8987940463, some 4877325890⟩, ⟨4539904997, 8910065242, some 5095254490⟩,
   ⟨4694715628, 8829475929, some 5317094320⟩, ⟨4848096202, 8746197071, some 5543090510⟩, ⟨5000000000, 8660254038, some 5773502690⟩, ⟨5150380749, 8571673007, some 6008606190⟩,
   ⟨5299192642, 8480480962, some 6248693520⟩, ⟨5446390350, 8386705679, some 6494075930⟩, ⟨5591929035, 8290375726, some 6745085170⟩, ⟨5735764364, 8191520443, some 7002075380⟩,
   ⟨5877852523, 8090169944, some 7265425280⟩, ⟨6018150232, 7986355100, some 7535540500⟩, ⟨6156614753, 7880107536, some 7812856270⟩, ⟨6293203910, 7771459615, some 8097840330⟩,
   ⟨6427876097, 7660444431, some 8390996310⟩, ⟨6560590290, 7547095802, some 8692867380⟩, ⟨6691306064, 7431448255, some 9004040440⟩, ⟨6819983601, 7313537016, some 9325150860⟩,
   ⟨6946583705, 7193398003, some 9656887750⟩, ⟨7071067812, 7071067812, some 10000000000⟩, ⟨7193398003, 6946583705, some 10355303140⟩, ⟨7313537016, 6819983601, some 10723687100⟩,
   ⟨7431448255, 6691306064, some 11106125150⟩, ⟨7547095802, 6560590290, some 11503684070⟩, ⟨7660444431, 6427876097, some 11917535930⟩, ⟨7771459615, 6293203910, some 12348971570⟩,
   ⟨7880107536, 6156614753, some 12799416320⟩, ⟨7986355100, 6018150232, some 13270448220⟩, ⟨8090169944, 5877852523, some 13763819200⟩, ⟨8191520443, 5735764364, some 14281480070⟩,
   ⟨8290375726, 5591929035, some 14825609690⟩, ⟨8386705679, 5446390350, some 15398649640⟩, ⟨8480480962, 5299192642, some 16003345290⟩, ⟨8571673007, 5150380749, some 16642794820⟩,
   ⟨8660254038, 5000000000, some 17320508080⟩, ⟨8746197071, 4848096202, some 18040477550⟩, ⟨8829475929, 4694715628, some 18807264650⟩, ⟨8910065242, 4539904997, some 19626105060⟩,
   ⟨8987940463, 4383711468, some 20503038420⟩, ⟨9063077870, 4226182617, some 21445069210⟩, ⟨9135454576, 4067366431, some 22460367740⟩, ⟨9205048535, 3907311285, some 23558523660⟩,
   ⟨9271838546, 3746065934, some 24750868530⟩, ⟨9335804265, 3583679495, some 26050890650⟩, ⟨9396926208, 3420201433, some 27474774190⟩, ⟨9455185756, 3255681545, some 29042108780⟩,
   ⟨9510565163, 3090169944, some 30776835370⟩, ⟨9563047560, 2923717047, some 32708526180⟩, ⟨9612616959, 2756373558, some 34874144440⟩, ⟨9659258263, 2588190451, some 37320508080⟩,
   ⟨9702957263, 2419218956, some 40107809340⟩, ⟨9743700648, 2249510543, some 43314758740⟩, ⟨9781476007, 2079116908, some 47046301090⟩, ⟨9816271834, 1908089954, some 51445540160⟩,
   ⟨9848077530, 1736481777, some 56712818200⟩, ⟨9876883406, 1564344650, some 63137515150⟩, ⟨9902680687, 1391731010, some 71153697220⟩, ⟨9925461516, 1218693434, some 81443464280⟩,
   ⟨9945218954, 1045284633, some 95143644540⟩, ⟨9961946981, 871557427, some 114300523000⟩, ⟨9975640503, 697564737, some 143006662600⟩, ⟨9986295348, 523359562, some 190811366900⟩,
   ⟨9993908270, 348994967, some 286362532800⟩, ⟨9998476952, 174524064, some 572899616300⟩, ⟨10000000000, 0, none⟩, ⟨9998476952, -174524064, some (-572899616300)⟩,
   ⟨9993908270, -348994967, some (-286362532800)⟩, ⟨9986295348, -523359562, some (-190811366900)⟩, ⟨9975640503, -697564737, some (-143006662600)⟩, ⟨9961946981, -871557427, some (-114300523000)⟩,
   ⟨9945218954, -1045284633, some (-95143644540)⟩, ⟨9925461516, -1218693434, some (-81443464280)⟩, ⟨9902680687, -1391731010, some (-71153697220)⟩, ⟨9876883406, -1564344650, some (-63137515150)⟩,
   ⟨9848077530, -1736481777, some (-56712818200)⟩, ⟨9816271834, -1908089954, some (-51445540160)⟩, ⟨9781476007, -2079116908, some (-47046301090)⟩, ⟨9743700648, -2249510543, some (-43314758740)⟩,
   ⟨9702957263, -2419218956, some (-40107809340)⟩, ⟨9659258263, -2588190451, some (-37320508080)⟩, ⟨9612616959, -2756373558, some (-34874144440)⟩, ⟨9563047560, -2923717047, some (-32708526180)⟩,
   ⟨9510565163, -3090169944, some (-30776835370)⟩, ⟨9455185756, -3255681545, some (-29042108780)⟩, ⟨9396926208, -3420201433, some (-27474774190)⟩, ⟨9335804265, -3583679495, some (-26050890650)⟩,
   ⟨9271838546, -3746065934, some (-24750868530)⟩, ⟨9205048535, -3907311285, some (-23558523660)⟩, ⟨9135454576, -4067366431, some (-22460367740)⟩, ⟨9063077870, -4226182617, some (-21445069210)⟩,
   ⟨8987940463, -4383711468, some (-20503038420)⟩, ⟨8910065242, -4539904997, some (-19626105060)⟩, ⟨8829475929, -4694715628, some (-18807264650)⟩, ⟨8746197071, -4848096202, some (-18040477550)⟩,
   ⟨8660254038, -5000000000, some (-17320508080)⟩, ⟨8571673007, -5150380749, some (-16642794820)⟩, ⟨8480480962, -5299192642, some (-16003345290)⟩, ⟨8386705679, -5446390350, some (-15398649640)⟩,
   ⟨8290375726, -5591929035, some (-14825609690)⟩, ⟨8191520443, -5735764364, some (-14281480070)⟩, ⟨8090169944, -5877852523, some (-13763819200)⟩, ⟨7986355100, -6018150232, some (-13270448220)⟩,
   ⟨7880107536, -6156614753, some (-12799416320)⟩, ⟨7771459615, -6293203910, some (-12348971570)⟩, ⟨7660444431, -6427876097, some (-11917535930)⟩, ⟨7547095802, -6560590290, some (-11503684070)⟩,
   ⟨7431448255, -6691306064, some (-11106125150)⟩, ⟨7313537016, -6819983601, some (-10723687100)⟩, ⟨7193398003, -6946583705, some (-10355303140)⟩, ⟨7071067812, -7071067812, some (-10000000000)⟩,
   ⟨6946583705, -7193398003, some (-9656887750)⟩, ⟨6819983601, -7313537016, some (-9325150860)⟩, ⟨6691306064, -7431448255, some (-9004040440)⟩, ⟨6560590290, -7547095802, some (-8692867380)⟩,
   ⟨6427876097, -7660444431, some (-8390996310)⟩, ⟨6293203910, -7771459615, some (-8097840330)⟩, ⟨6156614753, -7880107536, some (-7812856270)⟩, ⟨6018150232, -7986355100, some (-7535540500)⟩,
   ⟨5877852523, -8090169944, some (-7265425280)⟩, ⟨5735764364, -8191520443, some (-7002075380)⟩, ⟨5591929035, -8290375726, some (-6745085170)⟩, ⟨5446390350, -8386705679, some (-6494075930)⟩,
   ⟨5299192642, -8480480962, some (-6248693520)⟩, ⟨5150380749, -8571673007, some (-6008606190)⟩, ⟨5000000000, -8660254038, some (-5773502690)⟩, ⟨4848096202, -8746197071, some (-5543090510)⟩,
   ⟨4694715628, -8829475929, some (-5317094320)⟩, ⟨4539904997, -8910065242, some (-5095254490)⟩, ⟨4383711468, -8987940463, some (-4877325890)⟩, ⟨4226182617, -9063077870, some (-4663076580)⟩,
   ⟨4067366431, -9135454576, some (-4452286850)⟩, ⟨3907311285, -9205048535, some (-4244748160)⟩, ⟨3746065934, -9271838546, some (-4040262260)⟩, ⟨3583679495, -9335804265, some (-3838640350)⟩,
   ⟨3420201433, -9396926208, some (-3639702340)⟩, ⟨3255681545, -9455185756, some (-3443276130)⟩, ⟨3090169944, -9510565163, some (-3249196960)⟩, ⟨2923717047, -9563047560, some (-3057306810)⟩,
   ⟨2756373558, -9612616959, some (-2867453860)⟩, ⟨2588190451, -9659258263, some (-2679491920)⟩, ⟨2419218956, -9702957263, some (-2493280030)⟩, ⟨2249510543, -9743700648, some (-2308681910)⟩,
   ⟨2079116908, -9781476007, some (-2125565620)⟩, ⟨1908089954, -9816271834, some (-1943803090)⟩, ⟨1736481777, -9848077530, some (-1763269810)⟩, ⟨1564344650, -9876883406, some (-1583844400)⟩,
   ⟨1391731010, -9902680687, some (-1405408350)⟩, ⟨1218693434, -9925461516, some (-1227845610)⟩, ⟨1045284633, -9945218954, some (-1051042350)⟩, ⟨871557427, -9961946981, some (-874886640)⟩,
   ⟨697564737, -9975640503, some (-699268120)⟩, ⟨523359562, -9986295348, some (-524077790)⟩, ⟨348994967, -9993908270, some (-349207690)⟩, ⟨174524064, -9998476952, some (-174550650)⟩,
   ⟨0, -10000000000, some 0⟩, ⟨-174524064, -9998476952, some 174550650⟩, ⟨-348994967, -9993908270, some 349207690⟩, ⟨-523359562, -9986295348, some 524077790⟩,
   ⟨-697564737, -9975640503, some 699268120⟩, ⟨-871557427, -9961946981, some 874886640⟩, ⟨-1045284633, -9945218954, some 1051042350⟩, ⟨-1218693434, -9925461516, some 1227845610⟩,
   ⟨-1391731010, -9902680687, some 1405408350⟩, ⟨-1564344650, -9876883406, some 1583844400⟩, ⟨-1736481777, -9848077530, some 1763269810⟩, ⟨-1908089954, -9816271834, some 1943803090⟩,
   ⟨-2079116908, -9781476007, some 2125565620⟩, ⟨-2249510543, -9743700648, some 2308681910⟩, ⟨-2419218956, -9702957263, some 2493280030⟩, ⟨-2588190451, -9659258263, some 2679491920⟩,
   ⟨-2756373558, -9612616959, some 2867453860⟩, ⟨-2923717047, -9563047560, some 3057306810⟩, ⟨-3090169944, -9510565163, some 3249196960⟩, ⟨-3255681545, -9455185756, some 3443276130⟩,
   ⟨-3420201433, -9396926208, some 3639702340⟩, ⟨-3583679495, -9335804265, some 3838640350⟩, ⟨-3746065934, -9271838546, some 4040262260⟩, ⟨-3907311285, -9205048535, some 4244748160⟩,
   ⟨-4067366431, -9135454576, some 4452286850⟩, ⟨-4226182617, -9063077870, some 4663076580⟩, ⟨-4383711468, -8987940463, some 4877325890⟩, ⟨-4539904997, -8910065242, some 5095254490⟩,
   ⟨-4694715628, -8829475929, some 5317094320⟩, ⟨-4848096202, -8746197071, some 5543090510⟩, ⟨-5000000000, -8660254038, some 5773502690⟩, ⟨-5150380749, -8571673007, some 6008606190⟩,
   ⟨-5299192642, -8480480962, some 6248693520⟩, ⟨-5446390350, -8386705679, some 6494075930⟩, ⟨-5591929035, -8290375726, some 6745085170⟩, ⟨-5735764364, -8191520443, some 7002075380⟩,
   ⟨-5877852523, -8090169944, some 7265425280⟩, ⟨-6018150232, -7986355100, some 7535540500⟩, ⟨-6156614753, -7880107536, some 7812856270⟩, ⟨-6293203910, -7771459615, some 8097840330⟩,
   ⟨-6427876097, -7660444431, some 8390996310⟩, ⟨-6560590290, -7547095802, some 8692867380⟩, ⟨-6691306064, -7431448255, some 9004040440⟩, ⟨-6819983601, -7313537016, some 9325150860⟩,
   ⟨-6946583705, -7193398003, some 9656887750⟩, ⟨-7071067812, -7071067812, some 10000000000⟩, ⟨-7193398003, -6946583705, some 10355303140⟩, ⟨-7313537016, -6819983601, some 10723687100⟩,
   ⟨-7431448255, -6691306064, some 11106125150⟩, ⟨-7547095802, -6560590290, some 11503684070⟩, ⟨-7660444431, -6427876097, some 11917535930⟩, ⟨-7771459615, -6293203910, some 12348971570⟩,
   ⟨-7880107536, -6156614753, some 12799416320⟩, ⟨-7986355100, -6018150232, some 13270448220⟩, ⟨-8090169944, -5877852523, some 13763819200⟩, ⟨-8191520443, -5735764364, some 14281480070⟩,
   ⟨-8290375726, -5591929035, some 14825609690⟩, ⟨-8386705679, -5446390350, some 15398649640⟩, ⟨-8480480962, -5299192642, some 16003345290⟩, ⟨-8571673007, -5150380749, some 16642794820⟩,
   ⟨-8660254038, -5000000000, some 17320508080⟩, ⟨-8746197071, -4848096202, some 18040477550⟩, ⟨-8829475929, -4694715628, some 18807264650⟩, ⟨-8910065242, -4539904997, some 19626105060⟩,
   ⟨-8987940463, -4383711468, some 20503038420⟩, ⟨-9063077870, -4226182617, some 21445069210⟩, ⟨-9135454576, -4067366431, some 22460367740⟩, ⟨-9205048535, -3907311285, some 23558523660⟩,
   ⟨-9271838546, -3746065934, some 24750868530⟩, ⟨-9335804265, -3583679495, some 26050890650⟩, ⟨-9396926208, -3420201433, some 27474774190⟩, ⟨-9455185756, -3255681545, some 29042108780⟩,
   ⟨-9510565163, -3090169944, some 30776835370⟩, ⟨-9563047560, -2923717047, some 32708526180⟩, ⟨-9612616959, -2756373558, some 34874144440⟩, ⟨-9659258263, -2588190451, some 37320508080⟩,
   ⟨-9702957263, -2419218956, some 40107809340⟩, ⟨-9743700648, -2249510543, some 43314758740⟩, ⟨-9781476007, -2079116908, some 47046301090⟩, ⟨-9816271834, -1908089954, some 51445540160⟩,
   ⟨-9848077530, -1736481777, some 56712818200⟩, ⟨-9876883406, -1564344650, some 63137515150⟩, ⟨-9902680687, -1391731010, some 71153697220⟩, ⟨-9925461516, -1218693434, some 81443464280⟩,
   ⟨-9945218954, -1045284633, some 95143644540⟩, ⟨-9961946981, -871557427, some 114300523000⟩, ⟨-9975640503, -697564737, some 143006662600⟩, ⟨-9986295348, -523359562, some 190811366900⟩,
   ⟨-9993908270, -348994967, some 286362532800⟩, ⟨-9998476952, -174524064, some 572899616300⟩, ⟨-10000000000, 0, none⟩, ⟨-9998476952, 174524064, some (-572899616300)⟩,
   ⟨-9993908270, 348994967, some (-286362532800)⟩, ⟨-9986295348, 523359562, some (-190811366900)⟩, ⟨-9975640503, 697564737, some (-143006662600)⟩, ⟨-9961946981, 871557427, some (-114300523000)⟩,
   ⟨-9945218954, 1045284633, some (-95143644540)⟩, ⟨-9925461516, 1218693434, some (-81443464280)⟩, ⟨-9902680687, 1391731010, some (-71153697220)⟩, ⟨-9876883406, 1564344650, some (-63137515150)⟩,
   ⟨-9848077530, 1736481777, some (-56712818200)⟩, ⟨-9816271834, 1908089954, some (-51445540160)⟩, ⟨-9781476007, 2079116908, some (-47046301090)⟩, ⟨-9743700648, 2249510543, some (-43314758740)⟩,
   ⟨-9702957263, 2419218956, some (-40107809340)⟩, ⟨-9659258263, 2588190451, some (-37320508080)⟩, ⟨-9612616959, 2756373558, some (-34874144440)⟩, ⟨-9563047560, 2923717047, some (-32708526180)⟩,
   ⟨-9510565163, 3090169944, some (-30776835370)⟩, ⟨-9455185756, 3255681545, some (-29042108780)⟩, ⟨-9396926208, 3420201433, some (-27474774190)⟩, ⟨-9335804265, 3583679495, some (-26050890650)⟩,
   ⟨-9271838546, 3746065934, some (-24750868530)⟩, ⟨-9205048535, 3907311285, some (-23558523660)⟩, ⟨-9135454576, 4067366431, some (-22460367740)⟩, ⟨-9063077870, 4226182617, some (-21445069210)⟩,
   ⟨-8987940463, 4383711468, some (-20503038420)⟩, ⟨-8910065242, 4539904997, some (-19626105060)⟩, ⟨-8829475929, 4694715628, some (-18807264650)⟩, ⟨-8746197071, 4848096202, some (-18040477550)⟩,
   ⟨-8660254038, 5000000000, some (-17320508080)⟩, ⟨-8571673007, 5150380749, some (-16642794820)⟩, ⟨-8480480962, 5299192642, some (-16003345290)⟩, ⟨-8386705679, 5446390350, some (-15398649640)⟩,
   ⟨-8290375726, 5591929035, some (-14825609690)⟩, ⟨-8191520443, 5735764364, some (-14281480070)⟩, ⟨-8090169944, 5877852523, some (-13763819200)⟩, ⟨-7986355100, 6018150232, some (-13270448220)⟩,
   ⟨-7880107536, 6156614753, some (-12799416320)⟩, ⟨-7771459615, 6293203910, some (-12348971570)⟩, ⟨-7660444431, 6427876097, some (-11917535930)⟩, ⟨-7547095802, 6560590290, some (-11503684070)⟩,
   ⟨-7431448255, 6691306064, some (-11106125150)⟩, ⟨-7313537016, 6819983601, some (-10723687100)⟩, ⟨-7193398003, 6946583705, some (-10355303140)⟩, ⟨-7071067812, 7071067812, some (-10000000000)⟩,
   ⟨-6946583705, 7193398003, some (-9656887750)⟩, ⟨-6819983601, 7313537016, some (-9325150860)⟩, ⟨-6691306064, 7431448255, some (-9004040440)⟩, ⟨-6560590290, 7547095802, some (-8692867380)⟩,
   ⟨-6427876097, 7660444431, some (-8390996310)⟩, ⟨-6293203910, 7771459615, some (-8097840330)⟩, ⟨-6156614753, 7880107536, some (-7812856270)⟩, ⟨-6018150232, 7986355100, some (-7535540500)⟩,
   ⟨-5877852523, 8090169944, some (-7265425280)⟩, ⟨-5735764364, 8191520443, some (-7002075380)⟩, ⟨-5591929035, 8290375726, some (-6745085170)⟩, ⟨-5446390350, 8386705679, some (-6494075930)⟩,
   ⟨-5299192642, 8480480962, some (-6248693520)⟩, ⟨-5150380749, 8571673007, some (-6008606190)⟩, ⟨-5000000000, 8660254038, some (-5773502690)⟩, ⟨-4848096202, 8746197071, some (-5543090510)⟩,
   ⟨-4694715628, 8829475929, some (-5317094320)⟩, ⟨-4539904997, 8910065242, some (-5095254490)⟩, ⟨-4383711468, 8987940463, some (-4877325890)⟩, ⟨-4226182617, 9063077870, some (-4663076580)⟩,
   ⟨-4067366431, 9135454576, some (-4452286850)⟩, ⟨-3907311285, 9205048535, some (-4244748160)⟩, ⟨-3746065934, 9271838546, some (-4040262260)⟩, ⟨-3583679495, 9335804265, some (-3838640350)⟩,
   ⟨-3420201433, 9396926208, some (-3639702340)⟩, ⟨-3255681545, 9455185756, some (-3443276130)⟩, ⟨-3090169944, 9510565163, some (-3249196960)⟩, ⟨-2923717047, 9563047560, some (-3057306810)⟩,
   ⟨-2756373558, 9612616959, some (-2867453860)⟩, ⟨-2588190451, 9659258263, some (-2679491920)⟩, ⟨-2419218956, 9702957263, some (-2493280030)⟩, ⟨-2249510543, 9743700648, some (-2308681910)⟩,
   ⟨-2079116908, 9781476007, some (-2125565620)⟩, ⟨-1908089954, 9816271834, some (-1943803090)⟩, ⟨-1736481777, 9848077530, some (-1763269810)⟩, ⟨-1564344650, 9876883406, some (-1583844400)⟩,
   ⟨-1391731010, 9902680687, some (-1405408350)⟩, ⟨-1218693434, 9925461516, some (-1227845610)⟩, ⟨-1045284633, 9945218954, some (-1051042350)⟩, ⟨-871557427, 9961946981, some (-874886640)⟩,
   ⟨-697564737, 9975640503, some (-699268120)⟩, ⟨-523359562, 9986295348, some (-524077790)⟩, ⟨-348994967, 9993908270, some (-349207690)⟩, ⟨-174524064, 9998476952, some (-174550650)⟩]

/-- The conversion from `int` to `uint32_t`. -/
def toU32 (t : Int) : Nat := (t % 4294967296).toNat

/-- The conversion from `uint32_t` to `int`. -/
def toInt (u : Nat) : Int := if u < 2147483648 then u else (u : Int) - 4294967296

/-- `do_trig_degrees()`.  (geometry.cpp:402-409) -/
def do_trig_degrees (theta : Int) : Trig := table.getD ((toU32 theta + 2147483160) % 4294967296 % 360) default

/-- `degrees::reduce360()`.  (geometry.hpp:44-52) -/
def reduce360 (t : Int) : Int := toInt ((toU32 t + 2147483160) % 4294967296 % 360)

/-- `degrees::reduce180()`; the subtraction is one of unsigned integers.  (geometry.hpp:54-62) -/
def reduce180 (t : Int) : Int := toInt (((toU32 t + 2147483339) % 4294967296 % 360 + 4294967296 - 179) % 4294967296)

/-- A floating-point number. -/
inductive F
  | nan
  | inf (neg : Bool)
  | num (q : Rat)
deriving DecidableEq, Repr

/-- `_mm_cmpeq_ps` for one element. -/
def F.eq : F → F → Bool
  | .inf a, .inf b => a == b
  | .num a, .num b => decide (a = b)
  | _, _ => false

/-- `_mm_cmpgt_ps` for one element. -/
def F.gt : F → F → Bool
  | .inf a, .inf b => !a && b
  | .inf a, .num _ => !a
  | .num _, .inf b => b
  | .num a, .num b => decide (b < a)
  | _, _ => false

/-- The unary operator `-`. -/
def F.neg : F → F
  | .nan => .nan
  | .inf a => .inf !a
  | .num a => .num (-a)

/-- The operator `/`, where `fl` rounds a number to a floating-point number.  Simplified: the signs of zeroes are not modelled, so the
result of a division by zero is not; there is none in this code. -/
def F.div (fl : Rat → Rat) : F → F → F
  | .num a, .num b => if b = 0 then .nan else .num (fl (a / b))
  | .num _, .inf _ => .num 0
  | .inf a, .num b => .inf (a != decide (b < 0))
  | _, _ => .nan

/-- `s_trig_table[k].tan`, rounded; it is finite for all numbers that are used here. -/
def tanAt (fl : Rat → Rat) (k : Nat) : Rat := fl (((table.getD k default).tan.getD 0 : Rat) / 10000000000)

/-- The binary search: the final value of both variables.  (geometry.cpp:381-390) -/
def search (fl : Rat → Rat) (slope : Rat) : (fuel : Nat) → (lower theta : Nat) → Nat
  | 0, _, theta => theta
  | n + 1, lower, theta =>
    if lower = theta then theta
    else if slope < tanAt fl ((lower + theta) / 2) then search fl slope n lower ((lower + theta) / 2)
    else search fl slope n ((lower + theta) / 2 + 1) theta

/-- Ways to die: an assertion fails, or `ASTERIA_UNREACHABLE()` is reached. -/
inductive Abort
  | assertion
  | unreachable
deriving DecidableEq, Repr

/-- `do_reduced_arctan()`.  (geometry.cpp:373-399) -/
def do_reduced_arctan (fl : Rat → Rat) : F → Except Abort Int
  | .num slope =>
    if ¬ (0 ≤ slope ∧ slope ≤ 1) then .error .assertion
    else
      let theta := search fl slope 45 1 45
      let lower := theta - 1
      if ¬ (slope < tanAt fl theta ∨ slope = 1) then .error .assertion
      else if ¬ tanAt fl lower ≤ slope then .error .assertion
      else .ok (if fl (tanAt fl theta - slope) < fl (slope - tanAt fl lower) then theta else lower)
  | _ => .error .assertion

/-- `do_arctan_degrees()`.  The bits are, from the highest to the lowest: `x == x`, `x == 0`, `y == y`, `y == 0`, `x > 0`, `x > -y`, `y > 0`,
`y > x`.  (geometry.cpp:411-484) -/
def do_arctan_degrees (fl : Rat → Rat) (y x : F) : Except Abort Int :=
  match x.eq x, x.eq (.num 0), y.eq y, y.eq (.num 0), x.gt (.num 0), x.gt y.neg, y.gt (.num 0), y.gt x with
  | false, false, false, false, false, false, false, false => .ok 0
  | true, true, true, true, false, false, false, false => .ok 0
  | true, false, false, false, true, false, false, false => .ok 0
  | true, false, true, true, true, true, false, false => .ok 0
  | true, true, false, false, false, false, false, false => .ok 0
  | true, false, true, false, true, true, true, false => (do_reduced_arctan fl (y.div fl x)).map (fun t => t)
  | true, false, true, false, true, true, true, true => (do_reduced_arctan fl (x.div fl y)).map (fun t => 90 - t)
  | false, false, true, false, false, false, true, false => .ok 90
  | false, false, true, true, false, false, false, false => .ok 90
  | true, true, true, false, false, true, true, true => .ok 90
  | true, false, true, false, false, true, true, true => (do_reduced_arctan fl (x.div fl y.neg)).map (fun t => 90 + t)
  | true, false, true, false, false, false, true, true => (do_reduced_arctan fl (y.neg.div fl x)).map (fun t => 180 - t)
  | true, false, false, false, false, false, false, false => .ok 180
  | true, false, true, true, false, false, false, true => .ok 180
  | true, false, true, false, false, false, false, true => (do_reduced_arctan fl (y.div fl x)).map (fun t => 180 + t)
  | true, false, true, false, false, false, false, false => (do_reduced_arctan fl (x.div fl y)).map (fun t => 270 - t)
  | false, false, true, false, false, false, false, false => .ok 270
  | true, true, true, false, false, false, false, false => .ok 270
  | true, false, true, false, true, false, false, false => (do_reduced_arctan fl (x.div fl y.neg)).map (fun t => 270 + t)
  | true, false, true, false, true, true, false, false => (do_reduced_arctan fl (y.neg.div fl x)).map (fun t => 360 - t)
  | _, _, _, _, _, _, _, _ => .error .unreachable

/-- `degrees::sin()` at run time, rounded.  Simplified: where the argument is a constant, the compiler computes `sinf()` instead.
(geometry.hpp:64-73) -/
def sinOf (fl : Rat → Rat) (theta : Int) : Rat := fl (((do_trig_degrees theta).sin : Rat) / 10000000000)

/-- `degrees::cos()` at run time, rounded.  (geometry.hpp:75-84) -/
def cosOf (fl : Rat → Rat) (theta : Int) : Rat := fl (((do_trig_degrees theta).cos : Rat) / 10000000000)

/-- `struct vector2` with finite elements. -/
structure Vector2 where
  x : Rat
  y : Rat
deriving DecidableEq, Repr

/-- `vector2(float rho, degrees theta)`.  (geometry.hpp:164-166) -/
def ofPolar (fl : Rat → Rat) (rho : Rat) (theta : Int) : Vector2 := ⟨fl (rho * cosOf fl theta), fl (rho * sinOf fl theta)⟩

/-- `vector2::dot()`; there is no contraction of operations.  (geometry.hpp:182-185) -/
def Vector2.dot (fl : Rat → Rat) (a b : Vector2) : Rat := fl (fl (a.x * b.x) + fl (a.y * b.y))

/-- `vector2::cross()`.  (geometry.hpp:187-190) -/
def Vector2.cross (fl : Rat → Rat) (a b : Vector2) : Rat := fl (fl (a.x * b.y) - fl (a.y * b.x))

/-- `vector2::direction()` at run time.  (geometry.hpp:206-215) -/
def Vector2.direction (fl : Rat → Rat) (v : Vector2) : Except Abort Int := do_arctan_degrees fl (.num v.y) (.num v.x)

/-- `vector2::rotate()`.  (geometry.hpp:239-246) -/
def Vector2.rotate (fl : Rat → Rat) (v : Vector2) (theta : Int) : Vector2 :=
  let cos_th := cosOf fl theta
  let sin_th := sinOf fl theta
  ⟨fl (fl (v.x * cos_th) - fl (v.y * sin_th)), fl (fl (v.x * sin_th) + fl (v.y * cos_th))⟩

/-- `vector2::angle_from()`.  (geometry.hpp:249-257) -/
def Vector2.angle_from (fl : Rat → Rat) (v src : Vector2) : Except Abort Int :=
  Vector2.direction fl ⟨Vector2.dot fl src v, Vector2.cross fl src v⟩

end Verif.Geometry
