import Verif.Model.POParser
/-
Builds with `TINYGETTEXT_WITH_SDL`: `tinygettext::iconv` is `SDL_iconv` (include/tinygettext/iconv.hpp:43-75).  `IConv::convert`
(src/iconv.cpp:114-136) is the same code; it looks for a failure by comparing with `(size_t)-1`.  `SDL_iconv` returns that (SDL_ICONV_ERROR) only for
failures of other kinds: it returns `(size_t)-2` (SDL_ICONV_E2BIG) if there is no more room, `(size_t)-3` (SDL_ICONV_EILSEQ) for an invalid and
`(size_t)-4` (SDL_ICONV_EINVAL) for an incomplete sequence.  (SDL itself is not part of this code; this is its documented interface.)
-/
namespace Tgt

/-- What `SDL_iconv` returns. -/
inductive SdlReturn where
  /-- the number of characters converted -/
  | count
  | error | e2big | eilseq | einval
  deriving DecidableEq, Repr

/-- What `SDL_iconv` returns when the conversion ended in this way. -/
def SdlReturn.of : ConvStatus → SdlReturn
  | .ok => .count
  | .e2big => .e2big
  | .eilseq => .eilseq
  | .einval => .einval
  | .ebadf => .error
  | .other => .error

/-- How `IConv::convert` goes on (src/iconv.cpp:115): `ret == (size_t)-1` holds for SDL_ICONV_ERROR only, and then `errno` is looked at; everything else
is taken for success. -/
def SdlReturn.taken (r : SdlReturn) (errno : ConvStatus) : ConvStatus :=
  match r with
  | .error => errno
  | _ => .ok

/-- The same conversions done by way of SDL, as the code of `IConv` takes them.  The texts that a descriptor was given (`hist`) include those for
which it failed: it is not reset for them. -/
def IconvLib.sdl (lib : IconvLib) : IconvLib where
  iconvOpen := lib.iconvOpen
  conv to «from» hist text cap :=
    let r := lib.conv to «from» hist text cap
    { r with status := (SdlReturn.of r.status).taken r.status }
  conv_cap := fun to «from» hist text cap => lib.conv_cap to «from» hist text cap

namespace POParser

/-- `POParser` (src/po_parser.cpp:40-490) built with SDL. -/
def runSdl (c : Cfg) (input : Stream) (dict : Dictionary) : Res PState Unit := run { c with lib := c.lib.sdl } input dict

end POParser
end Tgt
