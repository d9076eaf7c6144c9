import Verif.Model.SubstDemos
/-! # Model of the demos of substitution systems with keys of two and three symbols -/

namespace Verif

/-- The rules of `demos/substitution_systems/substitution_system_demo3.py:6-11` and `substitution_system_demo6.py:5-10`. -/
def demo3Rules : Dict (List Char) (List Char) :=
  [(['2', '2'], ['2', '2']), (['2', '1'], ['1']), (['1', '2'], ['2', '1']), (['1', '1'], [])]

/-- The rules of `demos/substitution_systems/substitution_system_demo4.py:6-16`. -/
def demo4Rules : Dict (List Char) (List Char) :=
  [(['3', '3'], ['1']), (['3', '2'], ['1']), (['3', '1'], ['3']), (['2', '3'], ['1', '1']), (['2', '2'], ['1', '2']),
   (['2', '1'], ['2', '2']), (['1', '3'], ['3']), (['1', '2'], ['3']), (['1', '1'], ['1'])]

/-- The rules of `demos/substitution_systems/substitution_system_demo5.py:6-16`. -/
def demo5Rules : Dict (List Char) (List Char) :=
  [(['3', '3'], ['3']), (['3', '2'], ['1', '2']), (['3', '1'], ['1']), (['2', '3'], []), (['2', '2'], []),
   (['2', '1'], ['3']), (['1', '3'], ['1']), (['1', '2'], ['1', '2']), (['1', '1'], ['3'])]

/-- The rules of `demos/substitution_systems/substitution_system_demo7.py:5-14`. -/
def demo7Rules : Dict (List Char) (List Char) :=
  [(['1', '1', '1'], ['2', '2']), (['1', '1', '2'], ['1', '2', '1']), (['1', '2', '1'], ['1', '1']), (['1', '2', '2'], []),
   (['2', '1', '1'], ['2', '1', '2']), (['2', '1', '2'], ['1']), (['2', '2', '1'], ['2', '2']), (['2', '2', '2'], ['2', '1', '1'])]

end Verif
