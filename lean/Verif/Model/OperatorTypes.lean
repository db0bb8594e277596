import Verif.Model.Operators
import Verif.Model.Strings
/-!
# The predicates of operator types, and the constructors of operators

`self is type(self).X` compares members of the enumeration by identity.
-/

namespace Verif

namespace OpType

/-- /repo/versions/operators.py 697-698. -/
def isTildeEqual (t : OpType) : Bool := decide (t = tildeEqual)
/-- /repo/versions/operators.py 700-701. -/
def isDoubleEqual (t : OpType) : Bool := decide (t = doubleEqual)
/-- /repo/versions/operators.py 703-704. -/
def isNotEqual (t : OpType) : Bool := decide (t = notEqual)
/-- /repo/versions/operators.py 706-707. -/
def isLess (t : OpType) : Bool := decide (t = less)
/-- /repo/versions/operators.py 709-710. -/
def isLessOrEqual (t : OpType) : Bool := decide (t = lessOrEqual)
/-- /repo/versions/operators.py 712-713. -/
def isGreater (t : OpType) : Bool := decide (t = greater)
/-- /repo/versions/operators.py 715-716. -/
def isGreaterOrEqual (t : OpType) : Bool := decide (t = greaterOrEqual)
/-- /repo/versions/operators.py 718-719. -/
def isCaret (t : OpType) : Bool := decide (t = caret)
/-- /repo/versions/operators.py 721-722. -/
def isEqual (t : OpType) : Bool := decide (t = equal)
/-- /repo/versions/operators.py 724-725. -/
def isTilde (t : OpType) : Bool := decide (t = tilde)
/-- /repo/versions/operators.py 727-728. -/
def isWildcardDoubleEqual (t : OpType) : Bool := decide (t = wildcardDoubleEqual)
/-- /repo/versions/operators.py 730-731. -/
def isWildcardEqual (t : OpType) : Bool := decide (t = wildcardEqual)
/-- /repo/versions/operators.py 733-734. -/
def isWildcardNotEqual (t : OpType) : Bool := decide (t = wildcardNotEqual)

end OpType

namespace Operator

/-- /repo/versions/operators.py 822-823. -/
def isTildeEqual (o : Operator) : Bool := o.type.isTildeEqual
/-- /repo/versions/operators.py 825-826. -/
def isDoubleEqual (o : Operator) : Bool := o.type.isDoubleEqual
/-- /repo/versions/operators.py 828-829. -/
def isNotEqual (o : Operator) : Bool := o.type.isNotEqual
/-- /repo/versions/operators.py 831-832. -/
def isLess (o : Operator) : Bool := o.type.isLess
/-- /repo/versions/operators.py 834-835. -/
def isLessOrEqual (o : Operator) : Bool := o.type.isLessOrEqual
/-- /repo/versions/operators.py 837-838. -/
def isGreater (o : Operator) : Bool := o.type.isGreater
/-- /repo/versions/operators.py 840-841. -/
def isGreaterOrEqual (o : Operator) : Bool := o.type.isGreaterOrEqual
/-- /repo/versions/operators.py 843-844. -/
def isCaret (o : Operator) : Bool := o.type.isCaret
/-- /repo/versions/operators.py 846-847. -/
def isEqual (o : Operator) : Bool := o.type.isEqual
/-- /repo/versions/operators.py 849-850. -/
def isTilde (o : Operator) : Bool := o.type.isTilde
/-- /repo/versions/operators.py 852-853. -/
def isWildcardDoubleEqual (o : Operator) : Bool := o.type.isWildcardDoubleEqual
/-- /repo/versions/operators.py 855-856. -/
def isWildcardEqual (o : Operator) : Bool := o.type.isWildcardEqual
/-- /repo/versions/operators.py 858-859. -/
def isWildcardNotEqual (o : Operator) : Bool := o.type.isWildcardNotEqual
/-- /repo/versions/operators.py 861-867. -/
def isUnary (o : Operator) : Bool := o.type.isUnary
/-- /repo/versions/operators.py 869-875. -/
def isWildcard (o : Operator) : Bool := o.type.isWildcard

/-- /repo/versions/operators.py 877-879. -/
def tildeEqual (v : Version) : Except PyErr Operator := create .tildeEqual v
/-- /repo/versions/operators.py 881-883. -/
def doubleEqual (v : Version) : Except PyErr Operator := create .doubleEqual v
/-- /repo/versions/operators.py 885-887. -/
def notEqual (v : Version) : Except PyErr Operator := create .notEqual v
/-- /repo/versions/operators.py 889-891. -/
def less (v : Version) : Except PyErr Operator := create .less v
/-- /repo/versions/operators.py 893-895. -/
def lessOrEqual (v : Version) : Except PyErr Operator := create .lessOrEqual v
/-- /repo/versions/operators.py 897-899. -/
def greater (v : Version) : Except PyErr Operator := create .greater v
/-- /repo/versions/operators.py 901-903. -/
def greaterOrEqual (v : Version) : Except PyErr Operator := create .greaterOrEqual v
/-- /repo/versions/operators.py 905-907. -/
def caret (v : Version) : Except PyErr Operator := create .caret v
/-- /repo/versions/operators.py 909-911. -/
def equal (v : Version) : Except PyErr Operator := create .equal v
/-- /repo/versions/operators.py 913-915. -/
def tilde (v : Version) : Except PyErr Operator := create .tilde v
/-- /repo/versions/operators.py 917-919. -/
def wildcardDoubleEqual (v : Version) : Except PyErr Operator := create .wildcardDoubleEqual v
/-- /repo/versions/operators.py 921-923. -/
def wildcardEqual (v : Version) : Except PyErr Operator := create .wildcardEqual v
/-- /repo/versions/operators.py 925-927. -/
def wildcardNotEqual (v : Version) : Except PyErr Operator := create .wildcardNotEqual v

end Operator
end Verif
