import Verif.Props.Particles
import Verif.Props.Neighbors
import Verif.Props.Exchange
import Verif.Props.Fields
import Verif.Props.Maxwell
import Verif.Props.Deposit
import Verif.Props.Pusher
import Verif.Props.Sort
import Verif.Props.Hilbert
import Verif.Props.Rank
import Verif.Props.LoadBalance
import Verif.Props.MpiFields
import Verif.Props.Tags
import Verif.Props.RunLoop
import Verif.Props.Callbacks
import Verif.Props.CurrentSync
import Verif.Props.Restart
import Verif.Props.AutoPatch
import Verif.Props.Names
import Verif.Props.Stat
import Verif.Props.Fill
import Verif.Props.Pairing
import Verif.Props.Coulomb
import Verif.Props.Qed
import Verif.Props.Ids
import Verif.Props.Output
import Verif.Props.Density
import Verif.Props.MovingWindow
import Verif.Props.Laser
import Verif.Props.Cpml
import Verif.Props.Load
import Verif.Props.Lists
import Verif.Props.Chi
import Verif.Props.Debye
import Verif.Props.Exchange3
import Verif.Props.MpiExchange
import Verif.Props.Collective
import Verif.Props.PicStep
import Verif.Props.WholeRun
import Verif.Props.CpmlRun
import Verif.Props.WholeGauss
import Verif.Props.WholeSplit
import Verif.Props.WholePml
import Verif.Props.Setup
import Verif.Props.Momenta
import Verif.Props.Photon
import Verif.Props.Strength
import Verif.Props.Mask
import Verif.Props.Reload
import Verif.Props.Collide
import Verif.Props.Capsule
import Verif.Props.LaserRun
import Verif.Props.Beam
import Verif.Props.Paraxial
import Verif.Props.SimpleBeam
import Verif.Props.CpmlSetup
import Verif.Props.Energy
import Verif.Model.Rng
import Verif.Props.Rng
import Verif.Model.Balance
import Verif.Props.Balance
import Verif.Model.Insert
import Verif.Props.Insert
import Verif.Spec.Symmetry
import Verif.Proofs.Symmetry
import Verif.Proofs.SymmetryBoris
import Verif.Proofs.Symmetry2
import Verif.Proofs.Symmetry3
import Verif.Props.Symmetry
import Verif.Model.Resume
import Verif.Props.Resume
import Verif.Model.Kicks
import Verif.Proofs.Kicks
import Verif.Props.Kicks
import Verif.Model.Enable
import Verif.Spec.Enable
import Verif.Proofs.Enable
import Verif.Props.Enable
import Verif.Model.Rates
import Verif.Proofs.Rates
import Verif.Props.Rates
import Verif.Model.Tables
import Verif.Props.Tables
import Verif.Model.Juttner
import Verif.Proofs.Juttner
import Verif.Props.Juttner
import Verif.Proofs.Scattering
import Verif.Props.Scattering
import Verif.Model.Liouville
import Verif.Proofs.Liouville
import Verif.Props.Liouville
import Verif.Props.Gyration
import Verif.Proofs.Waves
import Verif.Proofs.Dispersion
import Verif.Props.Waves
import Verif.Spec.Reverse
import Verif.Proofs.Reverse
import Verif.Props.Reverse
import Verif.Spec.Scale
import Verif.Proofs.Scale
import Verif.Props.Scale
import Verif.Spec.Track
import Verif.Proofs.Track
import Verif.Props.Track
import Verif.Spec.Causal
import Verif.Proofs.Causal
import Verif.Proofs.Causal2
import Verif.Props.Causal
import Verif.Spec.Matter
import Verif.Proofs.Matter
import Verif.Props.Matter
import Verif.Spec.Planar
import Verif.Proofs.Planar
import Verif.Props.Planar
import Verif.Model.Config
import Verif.Props.Config
import Verif.Spec.Superpose
import Verif.Proofs.Superpose
import Verif.Props.Superpose
import Verif.Spec.Neutral
import Verif.Proofs.Neutral
import Verif.Props.Neutral
import Verif.Model.Progress
import Verif.Props.Progress
import Verif.Spec.Tiled
import Verif.Proofs.Tiled
import Verif.Props.Tiled
import Verif.Props.Begin
import Verif.Model.Plot
import Verif.Props.Plot
import Verif.Spec.Window
import Verif.Proofs.Window
import Verif.Props.Window
import Verif.Model.Job
import Verif.Props.Job
import Verif.Model.Log
import Verif.Proofs.Log
import Verif.Props.Log
import Verif.Proofs.Mean
import Verif.Props.Mean
import Verif.Spec.Away
import Verif.Proofs.Away
import Verif.Props.Away
