/-!
The theme variables users are told about, and the ones the library's own style rules use. Names only;
nothing here depends on the model.
-/

namespace Textual.Theme

/-- theme.rs:13-23: the table of base colour variables. -/
def baseNames : List String :=
  ["primary", "secondary", "warning", "error", "success", "accent", "foreground", "background", "surface",
   "panel", "boost"]

/-- The six colours that also have a text and a muted variant. -/
def roleNames : List String := ["primary", "secondary", "warning", "error", "success", "accent"]

/-- The variables the documentation promises (theme.rs:9-39). -/
inductive Documented : String → Prop
  | base (b) (h : b ∈ baseNames) : Documented b
  | lighten (b k) (h : b ∈ baseNames) (hk : k ∈ ["1", "2", "3"]) : Documented (b ++ "-lighten-" ++ k)
  | darken (b k) (h : b ∈ baseNames) (hk : k ∈ ["1", "2", "3"]) : Documented (b ++ "-darken-" ++ k)
  | text (n) (h : n ∈ ["text", "text-muted", "text-disabled"]) : Documented n
  | textRole (b) (h : b ∈ roleNames) : Documented ("text-" ++ b)
  | mutedRole (b) (h : b ∈ roleNames) : Documented (b ++ "-muted")
  | bar (n) (h : n ∈ ["scrollbar", "scrollbar-hover", "scrollbar-active", "scrollbar-background",
      "scrollbar-background-hover", "scrollbar-background-active", "scrollbar-corner-color"]) : Documented n
  | link (n) (h : n ∈ ["link-color", "link-background", "link-color-hover", "link-background-hover"]) :
      Documented n

/-- Colour variables in the library's default style rules: app_widget.rs:56-57, button.rs:209-368,
command_palette.rs:504-536 and 1586-1656, screen.rs:492, header.rs:387 and 753-754, widget.rs:173-185,
tooltip.rs:60, label.rs:77-81, placeholder.rs:324. -/
def usedColors : List String :=
  ["background", "block-cursor-blurred-background", "block-cursor-blurred-foreground", "border",
   "button-color-foreground", "button-foreground", "error", "error-darken-1", "error-darken-2",
   "error-darken-3", "error-lighten-2", "error-muted", "foreground", "link-background",
   "link-background-hover", "link-color", "link-color-hover", "panel", "panel-darken-1", "primary",
   "primary-darken-2", "primary-darken-3", "primary-lighten-3", "primary-muted", "scrollbar",
   "scrollbar-active", "scrollbar-background", "scrollbar-background-active",
   "scrollbar-background-hover", "scrollbar-corner-color", "scrollbar-hover", "success",
   "success-darken-2", "success-darken-3", "success-lighten-2", "success-muted", "surface",
   "surface-darken-1", "surface-lighten-1", "text", "text-error", "text-muted", "text-primary",
   "text-success", "text-warning", "warning", "warning-darken-2", "warning-darken-3",
   "warning-lighten-2", "warning-muted"]

/-- Text style variables in the library's default style rules: widget.rs:186-187, button.rs:216 and 285,
command_palette.rs:527. -/
def usedStyles : List String :=
  ["link-style", "link-style-hover", "button-focus-text-style", "block-cursor-blurred-text-style"]

/-- The variables named after a colour: its own, its shades, its muted and its text variant. -/
def NamedAfter (base name : String) : Prop :=
  name = base ∨ name = "text-" ++ base ∨ ∃ rest, name = base ++ "-" ++ rest

end Textual.Theme
