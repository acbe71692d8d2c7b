import Verif.Model.Client
import Verif.Model.Tcp
import Verif.Model.Server
import Verif.Model.Text
import Verif.Model.Json
import Verif.Model.Mqtt
import Verif.Model.Cbz
import Verif.Lemmas.Text
import Verif.Props.Topics
import Verif.Props.Mqtt
import Verif.Props.MqttEvents
import Verif.Props.Discovery
import Verif.Props.Cbz
import Verif.Props.CbzFile
import Verif.Props.Dump
import Verif.Props.DumpFile
import Verif.Props.Graph
import Verif.Props.Buffer
import Verif.Props.ClientEvents
import Verif.Props.Server
import Verif.Lemmas.Trace
import Verif.Props.EndToEnd
import Verif.Props.Codec
import Verif.Props.Report
import Verif.Props.Cal
import Verif.Props.Sal
import Verif.Props.Packet
import Verif.Props.Decoder
import Verif.Props.Stuck
import Verif.Props.Lines
import Verif.Props.Joint
import Verif.Props.JointMqtt
import Verif.Model.Main
import Verif.Model.Tools
import Verif.Props.Main
import Verif.Props.Tools
import Verif.Props.Histories
import Verif.Props.Sequence
import Verif.Props.Args
import Verif.Props.Entrypoint
import Verif.Props.Number
import Verif.Props.Failures
import Verif.Props.Grammar
import Verif.Props.Writing
import Verif.Props.JsonText
import Verif.Props.Scripts
import Verif.Props.Session
import Verif.Props.ServerSession
import Verif.Props.Life
import Verif.Props.Redirect
import Verif.Props.CniDiscovery
import Verif.Props.Standard
import Verif.Props.Connack
import Verif.Props.Burst
import Verif.Props.Downloads
import Verif.Props.Commands
import Verif.Props.RedirectMain
import Verif.Props.ServerMain
import Verif.Props.Logging
import Verif.Props.PowerUp
import Verif.Props.LongRamp
import Verif.Props.Broker
import Verif.Props.Outlet
import Verif.Props.Lamp
import Verif.Props.Source
import Verif.Props.Notice
import Verif.Props.Refused
import Verif.Props.Street
import Verif.Props.Alike
import Verif.Props.Said
import Verif.Props.Retained
import Verif.Props.Timing
import Verif.Props.Startup
import Verif.Props.Container
import Verif.Props.AuthFile
import Verif.Props.DockerRun
import Verif.Props.Keepalive
import Verif.Props.Memory
import Verif.Props.Town
import Verif.Props.Url
import Verif.Props.Drawing
import Verif.Props.DumpText
import Verif.Props.HomeAssistant
import Verif.Props.Redelivery
import Verif.Props.Restart
import Verif.Props.SerialLine
import Verif.Props.Load
import Verif.Props.Losses
import Verif.Props.Relay
import Verif.Props.Warnings
import Verif.Props.Names
import Verif.Props.Parameters
import Verif.Props.Flood
import Verif.Props.Layout
import Verif.Props.Repr
import Verif.Props.Log
import Verif.Props.Held
import Verif.Props.LogData
import Verif.Props.Duration
import Verif.Props.Noise
import Verif.Props.Announced
import Verif.Props.Clockwork
import Verif.Props.Prompt
import Verif.Props.Apart
import Verif.Props.Foretold
import Verif.Props.Secret
import Verif.Props.Renamed
import Verif.Props.Timeless
import Verif.Props.Struck
import Verif.Props.Healed
import Verif.Props.Transports
import Verif.Props.Repeated
import Verif.Props.Misheard
import Verif.Props.Dented
import Verif.Props.Answered
import Verif.Props.Setup
import Verif.Props.Misled
import Verif.Props.Heedless
import Verif.Tests
