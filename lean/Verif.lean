import Verif.Media.LogicProps
import Verif.Media.PrintProps
import Verif.Media.CustomProps
import Verif.Targets.Props
import Verif.Supports.Props
import Verif.Declarations.Props
import Verif.Handler.Props
import Verif.Rules.Props
import Verif.Layers.Props
import Verif.Keyframes.Props
import Verif.Bundler.Props
import Verif.Bundler.Examples
import Verif.Modules.PatternProps
import Verif.Modules.ExportProps
import Verif.Printer.Position
import Verif.Printer.TreeProps
import Verif.Selectors.BuildProps
import Verif.Selectors.NthPrint
import Verif.Selectors.FastReject
import Verif.Selectors.Unused
import Verif.Selectors.NestingProps
import Verif.MathFn.Examples
import Verif.MathFn.PrintProps
import Verif.MathFn.TermProps
import Verif.Units.Cost
import Verif.Sides.Props
import Verif.Color.Shortest
import Verif.Syntax.Props
import Verif.Syntax.ValueProps
import Verif.Shorthand.Place
import Verif.Shorthand.Round
import Verif.Shorthand.Lists
import Verif.Shorthand.Ease
import Verif.Shorthand.AnimProps
import Verif.Shorthand.Order
import Verif.Shorthand.NonEmpty
import Verif.Tokens.Examples
import Verif.Urls.Props
import Verif.Vars.Props
import Verif.Visit.Props
import Verif.Transform.MatrixProps
import Verif.Transform.HandlerProps
import Verif.Position.Props
import Verif.Gradient.LinearBugs
import Verif.Gradient.LegacyBugs
import Verif.Gradient.Radial
import Verif.Gradient.Single
import Verif.Mix.Hue
import Verif.Mix.MixProps
import Verif.Mix.ConvProps
import Verif.Fallback.Props
import Verif.Fallback.TokenProps
import Verif.PrefixFb.Props
import Verif.PrefixFb.FbProps
import Verif.PrefixFb.SupProps
import Verif.Grid.TracksProps
import Verif.Grid.AreasProps
import Verif.Grid.LinesProps
import Verif.Grid.TemplateProps
import Verif.Grid.GridProps
import Verif.Grid.HandlerProps
import Verif.Grid.NamesProps
import Verif.UniRange.Props
import Verif.Transition.ValueProps
import Verif.Transition.TableProps
import Verif.Transition.PanicProps
import Verif.Transition.HandlerProps
import Verif.Transition.MainProps
import Verif.Size.Aspect
import Verif.Size.Props
import Verif.Size.ValueProps
import Verif.Radius.Props
import Verif.Display.HandlerProps
import Verif.Animation.ReadProps
import Verif.Animation.PrintProps
import Verif.Animation.RangeProps
import Verif.Animation.HandlerProps3
import Verif.Font.PrintProps
import Verif.Font.HandlerProps
import Verif.Border.Props
import Verif.Background.LayerProps
import Verif.Background.Api
import Verif.Flex.Props
import Verif.Parse.Props
import Verif.Parse.TopProps
import Verif.Cow.Props
import Verif.Downlevel.Props
import Verif.Downlevel.Types
import Verif.SelParse.Props
import Verif.SelPrint.Props
import Verif.TextDeco.Props
import Verif.BoxShadow.Props
import Verif.LightDark.Props
import Verif.Effects.Props
import Verif.Filter.Props
import Verif.Align.Props
import Verif.Named.Props
import Verif.Mask.Props
import Verif.Mask.PrefixProps
import Verif.Page.Props
import Verif.Container.Props
import Verif.Container.Parser
