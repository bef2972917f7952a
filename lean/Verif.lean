import Verif.Rust.Str
import Verif.Gfm.Token
import Verif.Gfm.Lexer
import Verif.Gfm.Parser
import Verif.Gfm.Render
import Verif.Gfm.Iter
import Verif.Gfm.Tests
import Verif.Props.Iter
import Verif.Props.Escape
import Verif.Props.Links
import Verif.Props.Lexing
import Verif.Props.Termination
import Verif.Props.Safety
import Verif.Props.Elements
import Verif.Props.Chars
import Verif.Props.Order
import Verif.Props.Angles
import Verif.Props.Tokens
import Verif.Props.Markdown
import Verif.Props.Blocks
import Verif.Props.Forms
import Verif.Props.Contexts
import Verif.Props.Parts
import Verif.Props.Entries
import Verif.Core.Sys
import Verif.Core.Fs
import Verif.Core.Config
import Verif.Core.Convert
import Verif.App.Run
import Verif.App.Args
import Verif.App.Logger
import Verif.App.Bins
import Verif.Npm.Args
import Verif.Npm.Cli
import Verif.Props.App
import Verif.Props.Logger
import Verif.Props.Npm
import Verif.Props.Cli
import Verif.Props.Many
import Verif.Props.Failures
import Verif.Props.Bins
import Verif.Props.Growth
import Verif.Props.Renaming
import Verif.Props.Leading
import Verif.Props.Talk
import Verif.Props.Warns
import Verif.Props.Effort
import Verif.Props.Told
import Verif.Props.Again
import Verif.Props.Edit
import Verif.Props.Trailing
import Verif.Props.Compose
import Verif.Props.Failing
import Verif.Props.Corners
import Verif.Props.Quoted
import Verif.Props.Found
import Verif.Props.Exact
import Verif.Props.After
import Verif.Props.Inside
import Verif.Props.Reference
import Verif.Props.Literal
import Verif.Props.Signs
import Verif.Props.Windows
import Verif.Props.Syntax
import Verif.Props.Release
import Verif.Props.Malformed
import Verif.Props.Ci
import Verif.Props.Addresses
import Verif.Props.NoteRefs
import Verif.Props.Causes
import Verif.Props.Mixed
import Verif.Props.Changelog
import Verif.Props.Wellformed
import Verif.Props.Packages
import Verif.Props.Rows
import Verif.Props.Semver
import Verif.Props.Node
import Verif.Props.Lock
import Verif.Props.Closing
import Verif.Props.NoteIds
