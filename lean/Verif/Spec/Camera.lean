import Verif.Model.Example
import Verif.Model.Exact
/- Specification vocabulary: the picture a camera takes, in exact arithmetic. -/
namespace Rtbvh

/-- The screen is one unit in front of the camera and shows `height` by `width`, upright: a rectangle across the direction
of view whose edges have these lengths. -/
structure Camera.Frames (c : Camera Rat) (width height : Rat) : Prop where
  across : c.right.dot c.direction = 0 ∧ c.up.dot c.direction = 0
  rectangle : c.right.dot c.up = 0
  wide : c.right.dot c.right = width * width
  high : c.up.dot c.up = height * height

/-- Half of the field of view, in radians. -/
def Camera.halfAngle (pi : Rat) (c : Camera Rat) : Rat := c.fov / 2 * (pi / 180)

end Rtbvh
