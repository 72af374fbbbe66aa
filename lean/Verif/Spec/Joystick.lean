/-!
# Specification of the joystick: the names of buttons and axes, in the order of the driver
-/
namespace Verif.Joystick

/-- The buttons of the `xpad` driver -/
def xpadButtons : List String := ["A", "B", "X", "Y", "LB", "RB", "back", "start", "power", "stick_button_left",
  "stick_button_right", "DL", "DR", "DU", "DD"]

/-- The buttons of the `xboxdrv` driver -/
def xboxdrvButtons : List String := ["A", "B", "X", "Y", "LB", "RB", "back", "start", "power", "stick_button_left",
  "stick_button_right"]

/-- The buttons of a driver -/
def buttonNames (xpad : Bool) : List String := if xpad then xpadButtons else xboxdrvButtons

/-- The axes of both -/
def axisNames : List String := ["LH", "LV", "LT", "RH", "RV", "RT", "DH", "DV"]

end Verif.Joystick
